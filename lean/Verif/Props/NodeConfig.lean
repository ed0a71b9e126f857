import Verif.Lemmas.NodeConfig
import Verif.Lemmas.ExceptEq

/-! # C75: from the command line to a running node -/

namespace Verif.Props
open Verif.NodeConfig
open Verif.Props.StartSpec
open Verif.Capacity (Subnetwork)
open Verif.Events (Network)
open Verif.E2store (Res)

/-! ## Single values -/

/-- Networks, subnetworks and transports are read back from the names they are written with, and no other text is
read as one of them. -/
theorem C75_names :
    (∀ t (n : Network), parseNetwork t = some n ↔ t = (networkName n).toList) ∧
    (∀ n, showNetwork n = (networkName n).toList) ∧
    (∀ t (s : Subnetwork), parseSubnetwork t = some s ↔ t = (nameOf s).toList) ∧
    (∀ s, cliArg s = (nameOf s).toList) ∧
    (∀ t x, parseTransport t = some x ↔ t = showTransport x) :=
  ⟨parseNetwork_iff, fun n => by cases n <;> rfl, parseSubnetwork_iff, cliArg_eq, parseTransport_iff⟩

/-- A list of subnetworks is read exactly if it is names with commas between them, all of subnetworks that can be
run. -/
theorem C75_list (text : List Char) (subs : List Subnetwork) :
    parseSubnetworks text = some subs ↔ Lists text subs := parseSubnetworks_iff text subs

/-- Private keys and trusted roots are read exactly if they are `0x` and 64 hex digits, and as those bytes. -/
theorem C75_hex (text : List Char) (bytes : Bytes) :
    (parsePrivateKey text = some bytes ↔ Denotes text bytes) ∧
    (parseTrustedRoot text = some bytes ↔ Denotes text bytes) :=
  ⟨parsePrivateKey_iff text bytes, parseTrustedRoot_iff text bytes⟩

/-- A radius is accepted up to 100 percent. It is less than 100 below that share of the whole distance, and not
above it; the whole distance is reached with 100 percent, nothing with none, and more percent never give less. -/
theorem C75_radius (p : Option Nat) :
    (parseMaxRadius p ≠ none ↔ ∃ n ≤ 100, p = some n) ∧
    (∀ n r, parseMaxRadius (some n) = some r →
      100 * r ≤ (2 ^ 256 - 1) * n ∧ (2 ^ 256 - 1) * n < 100 * r + 100 * n + 1) ∧
    parseMaxRadius (some 100) = some (2 ^ 256 - 1) ∧ parseMaxRadius (some 0) = some 0 ∧
    (∀ a b r s, a ≤ b → parseMaxRadius (some a) = some r → parseMaxRadius (some b) = some s → r ≤ s) := by
  have hM : maxDistance = 2 ^ 256 - 1 := rfl
  have hdiv : ∀ n r, parseMaxRadius (some n) = some r → n ≤ 100 ∧
      ((n = 100 ∧ r = 2 ^ 256 - 1) ∨ (n < 100 ∧ r = (2 ^ 256 - 1) / 100 * n)) := by
    intro n r h
    unfold parseMaxRadius at h
    rw [hM] at h
    simp only at h
    split at h
    · cases h
    · split at h
      · next h1 => cases h; exact ⟨by omega, Or.inl ⟨h1, rfl⟩⟩
      · cases h; exact ⟨by omega, Or.inr ⟨by omega, rfl⟩⟩
  refine ⟨?_, ?_, by decide, by decide, ?_⟩
  · cases p with
    | none => simp [parseMaxRadius]
    | some n =>
      unfold parseMaxRadius
      simp only
      constructor
      · intro h
        split at h
        · exact absurd rfl h
        · exact ⟨n, by omega, rfl⟩
      · rintro ⟨m, hm, he⟩
        cases he
        rw [if_neg (by omega)]
        split <;> simp
  · intro n r h
    have hd : (2 ^ 256 - 1) / 100 * 100 ≤ 2 ^ 256 - 1 ∧ 2 ^ 256 - 1 < (2 ^ 256 - 1) / 100 * 100 + 100 := by
      constructor <;> decide
    obtain ⟨_, ⟨rfl, rfl⟩ | ⟨hn, rfl⟩⟩ := hdiv n r h
    · omega
    · generalize (2 ^ 256 - 1) / 100 = q at hd ⊢
      generalize 2 ^ 256 - 1 = M at hd ⊢
      have e1 : 100 * (q * n) = q * 100 * n := by rw [Nat.mul_comm q n, ← Nat.mul_assoc, Nat.mul_right_comm, Nat.mul_comm 100 q]
      have h1 := Nat.mul_le_mul_right n hd.1
      have h2 := Nat.mul_le_mul_right n (Nat.le_of_lt hd.2)
      rw [Nat.add_mul] at h2
      omega
  · intro a b r s hab ha hb
    obtain ⟨_, ⟨rfl, rfl⟩ | ⟨_, rfl⟩⟩ := hdiv a r ha <;> obtain ⟨_, ⟨rfl, rfl⟩ | ⟨_, rfl⟩⟩ := hdiv b s hb
    · exact Nat.le_refl _
    · omega
    · have := Nat.div_mul_le_self (2 ^ 256 - 1) 100
      exact Nat.le_trans (Nat.mul_le_mul_left _ hab) this
    · exact Nat.mul_le_mul_left _ hab

/-- Boot nodes: `default` is the list built in for the network, which is empty for Sepolia; `none` is no node; any
other text is records with commas between them, used in that order on every network. -/
theorem C75_bootnodes {ε : Type} (enr : List Char → Option ε) (mainnet angelfood : List ε) (net : Network) :
    ((parseBootnodes enr "default".toList).map fun b => b.toEnrs mainnet angelfood net) =
      some (match net with | .mainnet => mainnet | .angelfood => angelfood | .sepolia => []) ∧
    ((parseBootnodes enr "none".toList).map fun b => b.toEnrs mainnet angelfood net) = some [] ∧
    ∀ texts records, texts ≠ [] → (∀ t ∈ texts, ',' ∉ t) → joined texts ≠ "default".toList →
      joined texts ≠ "none".toList → texts.map enr = records.map some →
      ((parseBootnodes enr (joined texts)).map fun b => b.toEnrs mainnet angelfood net) = some records := by
  refine ⟨?_, ?_, ?_⟩
  · unfold parseBootnodes
    rw [if_pos rfl]
    cases net <;> rfl
  · unfold parseBootnodes
    rw [if_neg (by decide +kernel), if_pos rfl]
    cases net <;> rfl
  · intro texts records hne hcomma hd hn hall
    unfold parseBootnodes
    rw [if_neg hd, if_neg hn, split_joined texts hne hcomma]
    have : ∀ (ts : List (List Char)) (rs : List ε), ts.map enr = rs.map some → parseAll enr ts = some rs := by
      intro ts
      induction ts with
      | nil => intro rs h; cases rs with
        | nil => rfl
        | cons r rs => simp at h
      | cons t ts ih =>
        intro rs h
        cases rs with
        | nil => simp at h
        | cons r rs =>
          simp only [List.map_cons, List.cons.injEq] at h
          unfold parseAll
          rw [h.1]
          simp only
          rw [ih rs h.2]
          rfl
    rw [this texts records hall]
    cases net <;> rfl

/-! ## The flags together -/

theorem radius_eq (f : Flags) (r : Nat) (h : parseMaxRadius (f.maxRadius.getD (some 5)) = some r) :
    r = radiusOf f ∧ ∀ x ∈ f.maxRadius, ∃ p ≤ 100, x = some p := by
  have hM : maxDistance = 2 ^ 256 - 1 := rfl
  unfold radiusOf
  cases hf : f.maxRadius with
  | none =>
    rw [hf] at h
    unfold parseMaxRadius at h
    rw [hM] at h
    simp only [Option.getD_none] at h
    rw [if_neg (by omega), if_neg (by omega)] at h
    cases h
    exact ⟨rfl, fun x hx => nomatch hx⟩
  | some x =>
    rw [hf] at h
    unfold parseMaxRadius at h
    rw [hM] at h
    cases x with
    | none => cases h
    | some p =>
      simp only [Option.getD_some] at h
      split at h
      · cases h
      · next hp =>
        refine ⟨?_, fun x hx => ⟨p, by omega, by cases hx; rfl⟩⟩
        split at h
        · next h1 => subst h1; cases h; rfl
        · next h1 =>
          cases h
          split
          · next he => cases he; exact absurd rfl h1
          · next q _ he => cases he; rfl
          · next h2 => exact absurd rfl (h2 p)

theorem radius_ok (f : Flags) (h : ∀ x ∈ f.maxRadius, ∃ p ≤ 100, x = some p) :
    parseMaxRadius (f.maxRadius.getD (some 5)) = some (radiusOf f) := by
  cases hr : parseMaxRadius (f.maxRadius.getD (some 5)) with
  | some r => rw [(radius_eq f r hr).1]
  | none =>
    exfalso
    refine (C75_radius (f.maxRadius.getD (some 5))).1.2 ?_ hr
    cases hf : f.maxRadius with
    | none => exact ⟨5, by omega, rfl⟩
    | some x =>
      obtain ⟨p, hp, rfl⟩ := h x hf
      exact ⟨p, hp, rfl⟩

theorem cli_optional_spec (p : List Char → Option Bytes) (hp : ∀ t b, p t = some b ↔ Denotes t b)
    (g : Option (List Char)) (r : Option Bytes) : NodeConfig.optional p g = .ok r ↔
      (∀ t ∈ g, ∃ b, Denotes t b) ∧ (g = none → r = none) ∧ (∀ t ∈ g, ∃ b, Denotes t b ∧ r = some b) := by
  cases g with
  | none =>
    simp only [NodeConfig.optional, Except.ok.injEq]
    constructor
    · rintro rfl
      exact ⟨(fun t ht => nomatch ht), fun _ => rfl, fun t ht => nomatch ht⟩
    · rintro ⟨_, h, _⟩
      exact (h trivial).symm
  | some t =>
    unfold NodeConfig.optional
    simp only
    constructor
    · intro h
      split at h
      · next b hb =>
        cases h
        exact ⟨fun t ht => by cases ht; exact ⟨b, (hp _ _).1 hb⟩, (fun h => nomatch h),
          fun t ht => by cases ht; exact ⟨b, (hp _ _).1 hb, rfl⟩⟩
      · cases h
    · rintro ⟨_, _, h⟩
      obtain ⟨b, hb, rfl⟩ := h t rfl
      rw [(hp t b).2 hb]

theorem default_list : parseSubnetworks "beacon,legacy_history".toList = some [.beacon, .legacyHistory] := by
  decide +kernel

theorem asked_iff (f : Flags) (subs : List Subnetwork) :
    parseSubnetworks (f.portalSubnetworks.getD "beacon,legacy_history".toList) = some subs ↔ Asked f subs := by
  unfold Asked
  cases f.portalSubnetworks with
  | none =>
    simp only [Option.getD_none]
    rw [default_list]
    simp only [Option.some.injEq]
    exact eq_comm
  | some t => exact parseSubnetworks_iff t subs

theorem transport_iff (f : Flags) (x : Transport) : parseTransport (f.web3Transport.getD "ipc".toList) = some x ↔
    (∀ t ∈ f.web3Transport, t = "http".toList ∨ t = "ipc".toList) ∧ (x = .http ↔ wantsHttp f) := by
  have hne : "http".toList ≠ "ipc".toList := by decide +kernel
  rw [parseTransport_iff]
  unfold wantsHttp
  cases f.web3Transport with
  | none =>
    simp only [Option.getD_none]
    constructor
    · intro h
      refine ⟨(fun t ht => nomatch ht), ?_⟩
      cases x with
      | http => exact absurd h.symm hne
      | ipc => simp
    · rintro ⟨_, h⟩
      cases x with
      | http => exact absurd (h.1 rfl) (by simp)
      | ipc => rfl
  | some t =>
    simp only [Option.getD_some, Option.some.injEq]
    constructor
    · rintro rfl
      cases x with
      | http => exact ⟨fun t ht => by cases ht; exact Or.inl rfl, by simp [showTransport]⟩
      | ipc =>
        refine ⟨fun t ht => by cases ht; exact Or.inr rfl, ?_⟩
        simp only [reduceCtorEq, false_iff]
        exact fun h => hne h.symm
    · rintro ⟨h1, h2⟩
      rcases h1 t rfl with rfl | rfl
      · rw [h2.2 rfl]; rfl
      · cases x with
        | http => exact absurd (h2.1 rfl).symm hne
        | ipc => rfl

theorem network_iff (f : Flags) (n : Network) : parseNetwork (f.network.getD "mainnet".toList) = some n ↔
    (∀ t ∈ f.network, ∃ n, t = (networkName n).toList) ∧
      (networkName n).toList = f.network.getD "mainnet".toList := by
  rw [parseNetwork_iff]
  constructor
  · intro h
    refine ⟨fun t ht => ⟨n, ?_⟩, h.symm⟩
    rw [← h, show f.network = some t from ht]
    rfl
  · exact fun h => h.2.symm

theorem total_iff (f : Flags) (h : f.storageTotal ≠ none →
      f.storageBeacon = none ∧ f.storageLegacyHistory = none ∧ f.storageState = none) :
    totalOrDefault f =
      if f.storageBeacon = none ∧ f.storageLegacyHistory = none ∧ f.storageState = none then
        some (f.storageTotal.getD 1000)
      else f.storageTotal := by
  unfold totalOrDefault
  cases ht : f.storageTotal with
  | some t =>
    rw [ht] at h
    rw [if_pos (h (by simp))]
    rfl
  | none =>
    cases f.storageBeacon <;> cases f.storageLegacyHistory <;> cases f.storageState <;> simp

/-- The command line is accepted exactly if the flags fit together, and then every setting is the one that the
flags mean. -/
theorem C75_accepts (f : Flags) (c : Config) :
    newFrom f = .ok c ↔ Asked f c.subnetworks ∧ Consistent f c.subnetworks ∧ Settings f c := by
  rw [newFrom_ok, tryParse_ok, checkTransport_ok, checkDependencies_ok, checkStorage_ok]
  have httpOr : c.transport = .ipc ↔ ¬ c.transport = .http := by cases c.transport <;> simp
  constructor
  · rintro ⟨hp, ⟨ht1, ht2⟩, hd, hs1, hs2⟩
    have htr := (transport_iff f c.transport).1 hp.transport
    have hk := (cli_optional_spec _ parsePrivateKey_iff _ _).1 hp.privateKey
    have hr := (cli_optional_spec _ parseTrustedRoot_iff _ _).1 hp.trustedRoot
    have hn := (network_iff f c.network).1 hp.network
    have hm := radius_eq f _ hp.maxRadius
    have htot : f.storageTotal ≠ none →
        f.storageBeacon = none ∧ f.storageLegacyHistory = none ∧ f.storageState = none := by
      intro h
      have : c.storageTotal ≠ none := by
        rw [hp.storageTotal]
        unfold totalOrDefault
        cases hf : f.storageTotal with
        | none => exact absurd hf h
        | some t => simp
      have := hs1 this
      rw [hp.storageBeacon, hp.storageLegacyHistory, hp.storageState] at this
      exact this
    refine ⟨(asked_iff f _).1 hp.subnetworks, ?_, ?_⟩
    · refine ⟨htr.1, hk.1, hr.1, hn.1, hm.2, ?_, ?_, ?_, ?_, hd, htot, ?_⟩
      · intro h
        have := hp.stun
        cases he : f.externalAddress with
        | none => exact absurd he h
        | some a => simpa [he] using this
      · intro h
        have := hp.wsp
        cases he : f.wsPort with
        | none => exact absurd he h
        | some a => simpa [he] using this
      · intro h p hpp
        have := ht1 (htr.2.2 h)
        rw [hp.ipcPath, show f.web3IpcPath = some p from hpp] at this
        exact this
      · intro h
        have := ht2 (httpOr.2 (fun hc => h (htr.2.1 hc)))
        refine ⟨?_, ?_⟩
        · intro a ha
          have h1 := this.1
          rw [hp.httpAddress, show f.web3HttpAddress = some a from ha] at h1
          exact h1
        · rw [← hp.ws]; exact this.2
      · intro h
        have : c.storageTotal = none := by
          rw [hp.storageTotal, total_iff f htot, if_neg]
          · cases hf : f.storageTotal with
            | none => rfl
            | some t =>
              have := htot (by simp [hf])
              simp [this] at h
          · rintro ⟨h1, h2, h3⟩
            simp [h1, h2, h3] at h
        have := hs2 this
        rw [hp.storageBeacon, hp.storageLegacyHistory, hp.storageState] at this
        exact this
    · exact ⟨htr.2, hp.httpAddress, hp.ipcPath, hp.externalAddress, hp.noStun, hk.2.1, hk.2.2, hr.2.1, hr.2.2, hn.2,
        hp.storageBeacon, hp.storageLegacyHistory, hp.storageState, by rw [hp.storageTotal, total_iff f htot], hp.ws,
        hp.wsPort, hm.1⟩
  · rintro ⟨ha, hc, hs⟩
    refine ⟨⟨?_, ?_, ?_, ?_, ?_, ?_, ?_, ?_, hs.httpAddress, hs.ipcPath, hs.externalAddress, hs.noStun, ?_,
      hs.beacon, hs.legacyHistory, hs.state, hs.ws, hs.wsPort⟩, ⟨?_, ?_⟩, hc.closed, ?_, ?_⟩
    · exact (transport_iff f _).2 ⟨hc.transport, hs.transport⟩
    · exact (cli_optional_spec _ parsePrivateKey_iff _ _).2 ⟨hc.key, hs.noKey, hs.key⟩
    · exact (cli_optional_spec _ parseTrustedRoot_iff _ _).2 ⟨hc.root, hs.noRoot, hs.root⟩
    · exact (network_iff f _).2 ⟨hc.network, hs.network⟩
    · exact (asked_iff f _).2 ha
    · rw [hs.maxRadius]; exact radius_ok f hc.radius
    · cases he : f.externalAddress with
      | none => rfl
      | some a => simp [hc.address (by simp [he])]
    · cases he : f.wsPort with
      | none => rfl
      | some a => simp [hc.wsPort (by simp [he])]
    · rw [hs.total, total_iff f hc.total]
    · intro h
      rw [hs.ipcPath]
      cases hi : f.web3IpcPath with
      | none => rfl
      | some p => exact hc.http (hs.transport.1 h) p hi
    · intro h
      have hno : ¬ wantsHttp f := fun hw => by rw [hs.transport.2 hw] at h; cases h
      have := hc.ipc hno
      refine ⟨?_, by rw [hs.ws]; exact this.2⟩
      rw [hs.httpAddress]
      cases hi : f.web3HttpAddress with
      | none => rfl
      | some p => exact this.1 p hi
    · intro h
      rw [hs.total] at h
      rw [hs.beacon, hs.legacyHistory, hs.state]
      split at h
      · next h1 => exact h1
      · exact hc.total h
    · intro h
      rw [hs.total] at h
      rw [hs.beacon, hs.legacyHistory, hs.state]
      split at h
      · cases h
      · next h1 =>
        apply hc.sizes
        cases hb : f.storageBeacon <;> cases hl : f.storageLegacyHistory <;> cases hst : f.storageState <;>
          simp_all

/-- Flags that fit together are accepted. -/
theorem C75_accepts_all (f : Flags) (subs : List Subnetwork) (ha : Asked f subs) (hc : Consistent f subs) :
    ∃ c, newFrom f = .ok c ∧ c.subnetworks = subs := by
  have hkey : ∃ k : Option Bytes, (f.unsafePrivateKey = none → k = none) ∧
      ∀ t ∈ f.unsafePrivateKey, ∃ bytes, Denotes t bytes ∧ k = some bytes := by
    cases hk : f.unsafePrivateKey with
    | none => exact ⟨none, fun _ => rfl, fun t ht => nomatch ht⟩
    | some t =>
      obtain ⟨b, hb⟩ := hc.key t hk
      exact ⟨some b, (fun h => nomatch h), fun t' ht => by cases ht; exact ⟨b, hb, rfl⟩⟩
  have hroot : ∃ k : Option Bytes, (f.trustedBlockRoot = none → k = none) ∧
      ∀ t ∈ f.trustedBlockRoot, ∃ bytes, Denotes t bytes ∧ k = some bytes := by
    cases hk : f.trustedBlockRoot with
    | none => exact ⟨none, fun _ => rfl, fun t ht => nomatch ht⟩
    | some t =>
      obtain ⟨b, hb⟩ := hc.root t hk
      exact ⟨some b, (fun h => nomatch h), fun t' ht => by cases ht; exact ⟨b, hb, rfl⟩⟩
  have hnet : ∃ n, (networkName n).toList = f.network.getD "mainnet".toList := by
    cases hk : f.network with
    | none => exact ⟨.mainnet, rfl⟩
    | some t =>
      obtain ⟨n, hn⟩ := hc.network t hk
      exact ⟨n, hn.symm⟩
  have htr : ∃ x : Transport, x = .http ↔ wantsHttp f := by
    by_cases h : wantsHttp f
    · exact ⟨.http, by simp [h]⟩
    · exact ⟨.ipc, by simp [h]⟩
  obtain ⟨k, hk1, hk2⟩ := hkey
  obtain ⟨r, hr1, hr2⟩ := hroot
  obtain ⟨n, hn⟩ := hnet
  obtain ⟨x, hx⟩ := htr
  refine ⟨⟨x, _, _, _, _, k, r, n, subs, _, _, _, _, _, _, _⟩, (C75_accepts f _).2 ⟨ha, hc,
    ⟨hx, rfl, rfl, rfl, rfl, hk1, hk2, hr1, hr2, hn, rfl, rfl, rfl, rfl, rfl, rfl, rfl⟩⟩, rfl⟩

/-! ## Starting -/

theorem asked_active {f : Flags} {subs : List Subnetwork} (h : Asked f subs) :
    subs ≠ [] ∧ ∀ s ∈ subs, Active s := by
  unfold Asked at h
  cases hp : f.portalSubnetworks with
  | none =>
    rw [hp] at h
    subst h
    exact ⟨by simp, by simp [Active]⟩
  | some t =>
    rw [hp] at h
    exact ⟨h.1, h.2.1⟩

/-- The size that the storage of a running subnetwork gets, whether or not a name is repeated. -/
def sizeGiven (c : Config) (s : Subnetwork) : Nat :=
  match Capacity.create (storageConfig c) s with
  | .ok n => n
  | .error _ => 0

theorem create_ok {f : Flags} {c : Config} (h : newFrom f = .ok c) {s : Subnetwork} (hs : s ∈ c.subnetworks) :
    Capacity.create (storageConfig c) s = .ok (sizeGiven c s) := by
  have hact := (asked_active ((C75_accepts f c).1 h).1).2
  have hck := (checkStorage_ok c).1 ((newFrom_ok f c).1 h).2.2.2
  have : ∃ n, Capacity.create (storageConfig c) s = .ok n := by
    unfold storageConfig
    cases ht : c.storageTotal with
    | some t => exact ⟨_, create_active hact hs⟩
    | none =>
      have := hck.2 ht
      simp only
      unfold Capacity.create
      rcases hact s hs with rfl | rfl | rfl
      · have h1 := this.2.1.2 hs
        cases hb : c.storageLegacyHistory with
        | none => exact absurd hb h1
        | some mb => exact ⟨_, rfl⟩
      · have h1 := this.2.2.2 hs
        cases hb : c.storageState with
        | none => exact absurd hb h1
        | some mb => exact ⟨_, rfl⟩
      · have h1 := this.1.2 hs
        cases hb : c.storageBeacon with
        | none => exact absurd hb h1
        | some mb => exact ⟨_, rfl⟩
  obtain ⟨n, hn⟩ := this
  unfold sizeGiven
  rw [hn]

theorem size_nodup {f : Flags} {c : Config} (h : newFrom f = .ok c) (hn : c.subnetworks.Nodup)
    {s : Subnetwork} (hs : s ∈ c.subnetworks) : sizeGiven c s = sizeFor f c.subnetworks s := by
  have hacc := (C75_accepts f c).1 h
  have hact := (asked_active hacc.1).2
  have hset := hacc.2.2
  have hcr := create_ok h hs
  suffices hsuf : Capacity.create (storageConfig c) s = .ok (sizeFor f c.subnetworks s) by
    rw [hcr] at hsuf
    exact Except.ok.inj hsuf
  unfold storageConfig sizeFor
  rw [hset.total]
  by_cases hall : f.storageBeacon = none ∧ f.storageLegacyHistory = none ∧ f.storageState = none
  · rw [if_pos hall, if_pos hall]
    simp only
    rw [create_active hact hs, weightSum_nodup _ hn]
    congr 1
    have hb : Capacity.bytesInMb = 1000000 := rfl
    rw [hb]
    unfold weightOf
    rcases hact s hs with rfl | rfl | rfl
    · by_cases h2 : Subnetwork.state ∈ c.subnetworks
      · simp [hs, h2]; omega
      · simp [hs, h2]; omega
    · by_cases h2 : Subnetwork.legacyHistory ∈ c.subnetworks
      · simp [hs, h2]; omega
      · simp [hs, h2]; omega
    · simp
  · rw [if_neg hall, if_neg hall]
    have hnone : f.storageTotal = none := by
      cases ht : f.storageTotal with
      | none => rfl
      | some t => exact absurd (hacc.2.1.total (by simp [ht])) hall
    rw [hnone, hset.beacon, hset.legacyHistory, hset.state]
    simp only
    unfold Capacity.create
    have hsz := hacc.2.1.sizes (by
      cases hb : f.storageBeacon <;> cases hl : f.storageLegacyHistory <;> cases hst : f.storageState <;> simp_all)
    have hb' : Capacity.bytesInMb = 1000000 := rfl
    rcases hact s hs with rfl | rfl | rfl
    · have h1 := hsz.2.1.2 hs
      cases hb : f.storageLegacyHistory with
      | none => exact absurd hb h1
      | some mb => simp [hb']
    · have h1 := hsz.2.2.2 hs
      cases hb : f.storageState with
      | none => exact absurd hb h1
      | some mb => simp [hb']
    · have h1 := hsz.1.2 hs
      cases hb : f.storageBeacon with
      | none => exact absurd hb h1
      | some mb => simp [hb']

theorem initOverlay_eq {f : Flags} {c : Config} (h : newFrom f = .ok c) (s : Subnetwork) (r : Nat) :
    initOverlay c.subnetworks (storageConfig c) s r =
      .ok (if s ∈ c.subnetworks then some ⟨sizeGiven c s, r⟩ else none) := by
  unfold initOverlay
  by_cases hs : s ∈ c.subnetworks
  · rw [if_pos (by simpa using hs), create_ok h hs, if_pos hs]
  · rw [if_neg (by simpa using hs), if_neg hs]

theorem events_start {f : Flags} {c : Config} (h : newFrom f = .ok c) :
    Events.start (Events.initNode c.network c.subnetworks) [] =
      .ok (Events.initNode c.network c.subnetworks) := by
  obtain ⟨hne, hact⟩ := asked_active ((C75_accepts f c).1 h).1
  unfold Events.start
  rw [if_neg]
  · rfl
  · unfold Events.initNode
    cases hsub : c.subnetworks with
    | nil => exact absurd hsub hne
    | cons s rest =>
      rcases hact s (by simp [hsub]) with rfl | rfl | rfl <;> simp

theorem run_eq {f : Flags} {c : Config} (h : newFrom f = .ok c) (resolve : List Char → Option (List Addr)) :
    run resolve c = (launch resolve c (handlers c.subnetworks)).bind fun served => .ok
      { state := if .state ∈ c.subnetworks then some ⟨sizeGiven c .state, c.maxRadius⟩ else none
        beacon := if .beacon ∈ c.subnetworks then some ⟨sizeGiven c .beacon, maxDistance⟩ else none
        legacyHistory :=
          if .legacyHistory ∈ c.subnetworks then some ⟨sizeGiven c .legacyHistory, c.maxRadius⟩ else none
        rpc := some served
        events := Events.initNode c.network c.subnetworks } := by
  unfold run runNode
  rw [initOverlay_eq h, initOverlay_eq h, initOverlay_eq h]
  simp only [Res.bind]
  rw [events_start h]
  have hh : (⟨(if Subnetwork.legacyHistory ∈ c.subnetworks then
        some (⟨sizeGiven c .legacyHistory, c.maxRadius⟩ : Overlay) else none).isSome,
      (if Subnetwork.beacon ∈ c.subnetworks then
        some (⟨sizeGiven c .beacon, maxDistance⟩ : Overlay) else none).isSome,
      (if Subnetwork.state ∈ c.subnetworks then
        some (⟨sizeGiven c .state, c.maxRadius⟩ : Overlay) else none).isSome⟩ : Handlers) =
      handlers c.subnetworks := by
    unfold handlers
    congr 1 <;> (split <;> simp_all)
  rw [hh]
  cases launch resolve c (handlers c.subnetworks) <;> rfl

/-- An accepted command line starts the node, provided that no subnetwork is named twice, that an IPC path is
UTF-8 and that an HTTP address has a socket address. Exactly the subnetworks asked for run, with the sizes and the
radius asked for (the beacon network always with the whole distance), and the RPC server answers exactly the methods
of these subnetworks at the place asked for. -/
theorem C75_starts_partial (f : Flags) (c : Config) (resolve : List Char → Option (List Addr)) (a : Addr)
    (h : newFrom f = .ok c) (hn : c.subnetworks.Nodup)
    (hipc : ¬ wantsHttp f → c.ipcPath.utf8 = true)
    (hhttp : wantsHttp f → ∃ rest, resolve c.httpAddress = some (a :: rest)) :
    ∃ n names, run resolve c = .ok n ∧ AnswersExactly c.subnetworks names ∧
      n.state = (if .state ∈ c.subnetworks then some ⟨sizeFor f c.subnetworks .state, radiusOf f⟩ else none) ∧
      n.beacon = (if .beacon ∈ c.subnetworks then some ⟨sizeFor f c.subnetworks .beacon, 2 ^ 256 - 1⟩ else none) ∧
      n.legacyHistory = (if .legacyHistory ∈ c.subnetworks then
        some ⟨sizeFor f c.subnetworks .legacyHistory, radiusOf f⟩ else none) ∧
      n.events = Events.initNode c.network c.subnetworks ∧
      (¬ wantsHttp f → n.rpc = some ⟨some (c.ipcPath, names), none, none⟩) ∧
      (wantsHttp f → n.rpc = some ⟨none, some (a, names),
        if f.ws then some (⟨0, f.wsPort.getD 8546⟩, names) else none⟩) := by
  have hacc := (C75_accepts f c).1 h
  have hact := (asked_active hacc.1).2
  have hset := hacc.2.2
  have htr := hset.transport
  have hnot : c.transport = .ipc → ¬ wantsHttp f := by
    intro ht hw
    rw [htr.2 hw] at ht
    cases ht
  have hl := launch_ok resolve c hact hn a (fun ht => hipc (hnot ht)) (fun ht => hhttp (htr.1 ht))
  have hr := run_eq h resolve
  rw [hl] at hr
  refine ⟨_, names c.subnetworks, hr, names_spec _ hact hn, ?_, ?_, ?_, rfl, ?_, ?_⟩
  · simp only
    split
    · next hs => rw [size_nodup h hn hs, hset.maxRadius]
    · rfl
  · simp only
    split
    · next hs => rw [size_nodup h hn hs]; rfl
    · rfl
  · simp only
    split
    · next hs => rw [size_nodup h hn hs, hset.maxRadius]
    · rfl
  · intro hw
    have : c.transport = .ipc := by
      cases ht : c.transport with
      | ipc => rfl
      | http => exact absurd (htr.1 ht) hw
    simp only [servedAs, this]
  · intro hw
    simp only [servedAs, htr.2 hw, hset.ws, hset.wsPort]

/-- With these exceptions the start aborts; it never ends with an error of its own. -/
theorem C75_aborts (f : Flags) (c : Config) (resolve : List Char → Option (List Addr)) (h : newFrom f = .ok c) :
    run resolve c ≠ .err ∧
    (run resolve c = .panic ↔
      ¬ c.subnetworks.Nodup ∨ (¬ wantsHttp f ∧ c.ipcPath.utf8 = false) ∨
      (wantsHttp f ∧ (resolve c.httpAddress = none ∨ resolve c.httpAddress = some []))) := by
  have hacc := (C75_accepts f c).1 h
  have hact := (asked_active hacc.1).2
  have htr := hacc.2.2.transport
  have hnot : c.transport = .ipc ↔ ¬ wantsHttp f := by
    rw [← htr]; cases c.transport <;> simp
  rw [← hnot, ← htr]
  have hr := run_eq h resolve
  by_cases hbad : ¬ c.subnetworks.Nodup ∨ (c.transport = .ipc ∧ c.ipcPath.utf8 = false) ∨
      (c.transport = .http ∧ (resolve c.httpAddress = none ∨ resolve c.httpAddress = some []))
  · rw [launch_panic resolve c hact hbad] at hr
    rw [hr]
    exact ⟨by simp [Res.bind], by simp only [Res.bind, true_iff]; exact hbad⟩
  · have hn : c.subnetworks.Nodup := Classical.byContradiction fun hc => hbad (Or.inl hc)
    have hi : c.transport = .ipc → c.ipcPath.utf8 = true := by
      intro ht
      cases hu : c.ipcPath.utf8 with
      | true => rfl
      | false => exact absurd (Or.inr (Or.inl ⟨ht, hu⟩)) hbad
    have : ∃ a, c.transport = .http → ∃ rest, resolve c.httpAddress = some (a :: rest) := by
      cases ht : c.transport with
      | ipc => exact ⟨⟨0, 0⟩, fun hc => by cases hc⟩
      | http =>
        cases hres : resolve c.httpAddress with
        | none => exact absurd (Or.inr (Or.inr ⟨ht, Or.inl hres⟩)) hbad
        | some l =>
          cases l with
          | nil => exact absurd (Or.inr (Or.inr ⟨ht, Or.inr hres⟩)) hbad
          | cons a rest => exact ⟨a, fun _ => ⟨rest, rfl⟩⟩
    obtain ⟨a, ha⟩ := this
    rw [launch_ok resolve c hact hn a hi ha] at hr
    rw [hr]
    exact ⟨by simp [Res.bind], by simp only [Res.bind, reduceCtorEq, false_iff]; exact hbad⟩

/-- `--portal-subnetworks beacon,beacon`, which is accepted, aborts the start, as does an IPC path that is not
UTF-8, and as does an HTTP address without a socket address. -/
theorem C75_starts_violated (resolve : List Char → Option (List Addr)) :
    (∃ c, newFrom { portalSubnetworks := some "beacon,beacon".toList } = .ok c ∧ run resolve c = .panic) ∧
    (∀ p : Path, p.utf8 = false → ∃ c, newFrom { web3IpcPath := some p } = .ok c ∧ run resolve c = .panic) ∧
    (∀ url, resolve url = none → ∃ c,
      newFrom { web3Transport := some "http".toList, web3HttpAddress := some url } = .ok c ∧
        run resolve c = .panic) := by
  have base : ∀ f : Flags, f.unsafePrivateKey = none → f.trustedBlockRoot = none → f.network = none →
      f.maxRadius = none → f.externalAddress = none → f.wsPort = none → f.storageBeacon = none →
      f.storageLegacyHistory = none → f.storageState = none → f.ws = false →
      (∀ t ∈ f.web3Transport, t = "http".toList ∨ t = "ipc".toList) →
      (wantsHttp f → f.web3IpcPath = none) → (¬ wantsHttp f → f.web3HttpAddress = none) →
      ∀ subs, Asked f subs → (∀ s ∈ subs, ∀ t, Needs s t → t ∈ subs) →
      ∃ c, newFrom f = .ok c ∧ c.subnetworks = subs := by
    intro f h1 h2 h3 h4 h5 h6 h7 h8 h9 h10 h11 h12 h13 subs ha hd
    refine C75_accepts_all f subs ha ⟨h11, ?_, ?_, ?_, ?_, ?_, ?_, ?_, ?_, hd, ?_, ?_⟩
    · rw [h1]; exact fun t ht => nomatch ht
    · rw [h2]; exact fun t ht => nomatch ht
    · rw [h3]; exact fun t ht => nomatch ht
    · rw [h4]; exact fun t ht => nomatch ht
    · rw [h5]; exact fun h => absurd rfl h
    · rw [h6]; exact fun h => absurd rfl h
    · intro hw; rw [h12 hw]; exact fun t ht => nomatch ht
    · intro hw; rw [h13 hw]; exact ⟨(fun t ht => nomatch ht), h10⟩
    · exact fun _ => ⟨h7, h8, h9⟩
    · rw [h7, h8, h9]; simp
  have needsDefault : ∀ s ∈ [Subnetwork.beacon, .legacyHistory], ∀ t, Needs s t →
      t ∈ [Subnetwork.beacon, .legacyHistory] := by
    intro s hs t ht
    simp at hs
    rcases hs with rfl | rfl <;> simp_all [Needs]
  refine ⟨?_, ?_, ?_⟩
  · obtain ⟨c, hc, hs⟩ := base { portalSubnetworks := some "beacon,beacon".toList } rfl rfl rfl rfl rfl rfl rfl rfl rfl
      rfl (fun t ht => nomatch ht) (fun _ => rfl) (fun _ => rfl) [.beacon, .beacon]
      ⟨by simp, by simp [Active], by decide +kernel⟩ (by simp [Needs])
    exact ⟨c, hc, (C75_aborts _ c resolve hc).2.2 (Or.inl (by rw [hs]; decide))⟩
  · intro p hp
    obtain ⟨c, hc, hs⟩ := base { web3IpcPath := some p } rfl rfl rfl rfl rfl rfl rfl rfl rfl
      rfl (fun t ht => nomatch ht) (fun h => nomatch h) (fun _ => rfl) [.beacon, .legacyHistory] rfl needsDefault
    refine ⟨c, hc, (C75_aborts _ c resolve hc).2.2 (Or.inr (Or.inl ⟨(fun h => nomatch h), ?_⟩))⟩
    rw [((C75_accepts _ c).1 hc).2.2.ipcPath]
    exact hp
  · intro url hu
    obtain ⟨c, hc, hs⟩ := base { web3Transport := some "http".toList, web3HttpAddress := some url } rfl rfl rfl rfl rfl
      rfl rfl rfl rfl rfl (fun t ht => by cases ht; exact Or.inl rfl) (fun _ => rfl) (fun h => absurd rfl h)
      [.beacon, .legacyHistory] rfl needsDefault
    refine ⟨c, hc, (C75_aborts _ c resolve hc).2.2 (Or.inr (Or.inr ⟨rfl, Or.inl ?_⟩))⟩
    rw [((C75_accepts _ c).1 hc).2.2.httpAddress]
    exact hu

/-- A name given twice also takes away storage where the node runs without RPC: with legacy history twice and a total
of 1000 megabytes, half of it is never used. -/
theorem C75_storage_violated (resolve : List Char → Option (List Addr)) :
    ∃ c n, newFrom { portalSubnetworks := some "beacon,legacy_history,legacy_history".toList } = .ok c ∧
      runNode resolve c.network c.subnetworks (storageConfig c) c.maxRadius none = .ok n ∧
      n.beacon.map (·.capacity) = some 0 ∧ n.legacyHistory.map (·.capacity) = some 500000000 := by
  refine ⟨_, ⟨none, some ⟨0, maxDistance⟩, some ⟨500000000, radiusOf {}⟩, none,
    Events.initNode .mainnet [.beacon, .legacyHistory, .legacyHistory]⟩,
    (C75_accepts _ ⟨.ipc, defaultHttpAddress, ⟨defaultIpcPath, true⟩, none, false, none, none, .mainnet,
    [.beacon, .legacyHistory, .legacyHistory], some 1000, none, none, none, false, 8546, radiusOf {}⟩).2 ⟨?_, ?_, ?_⟩,
    rfl, rfl, rfl⟩
  · exact ⟨by simp, by simp [Active], by decide +kernel⟩
  · refine ⟨(fun t ht => nomatch ht), (fun t ht => nomatch ht), (fun t ht => nomatch ht), (fun t ht => nomatch ht),
      (fun t ht => nomatch ht), fun h => absurd rfl h, fun h => absurd rfl h, (fun h => nomatch h),
      fun _ => ⟨(fun t ht => nomatch ht), rfl⟩, ?_, fun _ => ⟨rfl, rfl, rfl⟩, by simp⟩
    intro s hs t ht
    simp at hs
    rcases hs with rfl | rfl <;> simp_all [Needs]
  · exact ⟨by simp [wantsHttp], rfl, rfl, rfl, rfl, fun _ => rfl, (fun t ht => nomatch ht), fun _ => rfl,
      (fun t ht => nomatch ht), rfl, rfl, rfl, rfl, rfl, rfl, rfl, rfl⟩

/-- Every subnetwork that is enabled together with the ones it depends on can be: what is needed by what is needed is
among what is needed. -/
theorem C75_closure (s : Subnetwork) : s ∈ withDependencies s ∧
    (∀ t, Needs s t → t ∈ withDependencies s) ∧
    (∀ t ∈ withDependencies s, ∀ u, Needs t u → u ∈ withDependencies s) ∧
    (∀ t ∈ withDependencies s, t ≠ s → Needs s t) := by
  refine ⟨by simp [withDependencies], ?_, ?_, ?_⟩
  · intro t ht
    cases s <;> simp_all [withDependencies, dependencies, Needs]
    rcases ht with rfl | rfl <;> simp
  · intro t ht u hu
    cases s <;> simp [withDependencies, dependencies] at ht
    all_goals first
      | (subst ht; cases hu)
      | (rcases ht with rfl | rfl <;> simp_all [withDependencies, dependencies, Needs])
      | (rcases ht with rfl | rfl | rfl <;> simp_all [withDependencies, dependencies, Needs])
    all_goals (rcases hu with rfl | rfl <;> simp)
  · intro t ht hne
    cases s <;> simp_all [withDependencies, dependencies, Needs]
    rcases ht with rfl | rfl <;> simp

/-- A method of one module is not one of another; the name tells the subnetwork. -/
theorem C75_methods (m m' : Module) (x : List Char) (h : x ∈ methods m) (h' : x ∈ methods m') :
    m = m' ∧ (match m with
      | .beacon => "portal_beacon" | .discv5 => "discv5_" | .eth => "eth_"
      | .legacyHistory => "portal_legacyHistory" | .state => "portal_state" | .web3 => "web3_").toList <+: x := by
  refine ⟨Classical.byContradiction fun hne => methods_disjoint m m' hne x h h', ?_⟩
  have key : ∀ (p : List Char) (l : List (List Char)), (l.all fun y => p.isPrefixOf y) = true → x ∈ l → p <+: x := by
    intro p l hl hx
    exact List.isPrefixOf_iff_prefix.1 (List.all_eq_true.1 hl x hx)
  cases m <;> exact key _ _ (by decide +kernel) h

/-- The operations that every subnetwork offers, and those of beacon. -/
def overlayOps : List (List Char) :=
  ["RoutingTableInfo", "Radius", "AddEnr", "GetEnr", "DeleteEnr", "LookupEnr", "Ping", "FindNodes",
   "RecursiveFindNodes", "FindContent", "GetContent", "TraceGetContent", "PaginateLocalContentKeys", "PutContent",
   "Offer", "TraceOffer", "Store", "LocalContent"].map String.toList
def beaconOps : List (List Char) :=
  ["LightClientStore", "FinalizedStateRoot", "FinalizedHeader", "FinalityUpdate", "OptimisticUpdate",
   "OptimisticStateRoot"].map String.toList
def discv5Ops : List (List Char) :=
  ["nodeInfo", "updateNodeInfo", "routingTableInfo", "addEnr", "getEnr", "deleteEnr", "lookupEnr",
   "recursiveFindNodes", "talkReq", "ping", "findNode"].map String.toList
def ethOps : List (List Char) :=
  ["chainId", "getBlockByNumber", "getBlockByHash", "getBalance", "getCode", "getStorageAt", "call"].map
    String.toList

/-- Every subnetwork answers to the same operations under its own name; beacon to six more; and the other
modules to the operations listed. -/
theorem C75_overlay_methods (x : List Char) :
    (x ∈ methods .state ↔ ∃ op ∈ overlayOps, x = "portal_state".toList ++ op) ∧
    (x ∈ methods .legacyHistory ↔ ∃ op ∈ overlayOps, x = "portal_legacyHistory".toList ++ op) ∧
    (x ∈ methods .beacon ↔ ∃ op ∈ overlayOps ++ beaconOps, x = "portal_beacon".toList ++ op) ∧
    (x ∈ methods .discv5 ↔ ∃ op ∈ discv5Ops, x = "discv5_".toList ++ op) ∧
    (x ∈ methods .eth ↔ ∃ op ∈ ethOps, x = "eth_".toList ++ op) ∧
    (x ∈ methods .web3 ↔ x = "web3_clientVersion".toList) := by
  have key : ∀ (p : List Char) (ops l : List (List Char)),
      (l.all (fun y => (ops.map (p ++ ·)).contains y) && (ops.map (p ++ ·)).all fun y => l.contains y) = true →
      (x ∈ l ↔ ∃ op ∈ ops, x = p ++ op) := by
    intro p ops l h
    simp only [Bool.and_eq_true, List.all_eq_true, List.contains_iff_mem] at h
    constructor
    · intro hx
      obtain ⟨op, h1, h2⟩ := List.mem_map.mp (h.1 x hx)
      exact ⟨op, h1, h2.symm⟩
    · rintro ⟨op, h1, rfl⟩
      exact h.2 _ (List.mem_map.mpr ⟨op, h1, rfl⟩)
  exact ⟨key _ _ _ (by decide +kernel), key _ _ _ (by decide +kernel), key _ _ _ (by decide +kernel),
    key _ _ _ (by decide +kernel), key _ _ _ (by decide +kernel), by simp [methods]⟩

namespace NodeConfigExample

/-- A command line with sizes, a key in mixed case and WebSocket. -/
def flags : Flags where
  web3Transport := some "http".toList
  web3HttpAddress := some "http://0.0.0.0:8546/".toList
  unsafePrivateKey := some ("0x".toList ++ List.replicate 32 'A' ++ List.replicate 32 'b')
  network := some "sepolia".toList
  portalSubnetworks := some "state,beacon,legacy_history".toList
  storageBeacon := some 1
  storageLegacyHistory := some 20
  storageState := some 300
  ws := true
  maxRadius := some (some 100)

def resolve : List Char → Option (List Addr) := fun _ => some [⟨0, 8546⟩]

def started (f : Flags) : Option (Config × Node) :=
  match newFrom f with
  | .ok c => match run resolve c with
    | .ok n => some (c, n)
    | _ => none
  | .error _ => none

example : (started flags).map (fun x => (x.1.subnetworks, x.1.network, x.1.privateKey)) =
    some ([.state, .beacon, .legacyHistory], .sepolia,
      some (List.replicate 16 0xaa ++ List.replicate 16 0xbb)) := by decide +kernel
example : (started flags).map (fun x => (x.2.state, x.2.beacon, x.2.legacyHistory)) =
    some (some ⟨300000000, 2 ^ 256 - 1⟩, some ⟨1000000, 2 ^ 256 - 1⟩, some ⟨20000000, 2 ^ 256 - 1⟩) := by
  decide +kernel

/-- Without flags. -/
example : (started {}).map (fun x => (x.1.subnetworks, x.1.storageTotal, x.2.state, x.2.legacyHistory.map (·.capacity)))
    = some ([.beacon, .legacyHistory], some 1000, none, some 1000000000) := by decide +kernel

/-- Legacy history without beacon, a size for a subnetwork that is not asked for, a total with a size. -/
example : newFrom { portalSubnetworks := some "legacy_history".toList } = .error .missingDependency := by
  decide +kernel
example : newFrom { storageState := some 5, storageBeacon := some 5, storageLegacyHistory := some 5 } =
    .error .conflict := by decide +kernel
example : newFrom { storageTotal := some 5, storageBeacon := some 5 } = .error .conflict := by decide +kernel

end NodeConfigExample

end Verif.Props
