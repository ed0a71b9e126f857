import Verif.Props.EthRpcSpec
import Verif.Lemmas.EvmState
import Verif.Props.HistoryValidator

namespace Verif.EvmState
open Verif.Trie Verif.StateContent Verif.Props
open Verif.ContentKey (State)

/-- Nodes of a reader come from the network. -/
def FromNet (net : Network) (s : Reader) : Prop :=
  ∀ e ∈ s.cache, ∃ bs, net e.1 = some bs ∧ Value.decode e.1 bs = some e.2

theorem fetchContent_fromNet {net : Network} {s : Reader} (h : FromNet net s) (key : State) :
    FromNet net (fetchContent net s key).2 := by
  unfold fetchContent
  split
  · exact h
  · split
    · exact h
    · next bs hb =>
      split
      · exact h
      · next v hv =>
        intro e he
        rcases List.mem_cons.mp he with rfl | he
        · exact ⟨bs, hb, hv⟩
        · exact h e he

theorem walk_fromNet {env : Env} {net : Network} {key : List UInt8 → Id → State} {path : List UInt8} :
    ∀ (rounds : Nat) (node : Id) (rem : List UInt8) (s : Reader), FromNet net s →
    FromNet net (walk env net key path rounds node rem s).2
  | 0, node, rem, s, hp => hp
  | rounds + 1, node, rem, s, hp => by
    simp only [walk]
    split
    · exact hp
    · next pre _ =>
      have h1 := fetchContent_fromNet hp (key pre node)
      rw [← fetchNode_snd env] at h1
      split
      · next hf => rw [hf] at h1; exact h1
      · next hf =>
        rw [hf] at h1
        split
        · exact h1
        · exact h1
        · exact walk_fromNet rounds _ _ _ h1
        · exact h1
        · exact h1

theorem accountState_fromNet {env : Env} {net : Network} {s : Reader} (h : FromNet net s) (rounds : Nat) (root ah : Id) :
    FromNet net (accountState env net rounds root ah s).2 := by
  unfold FromNet
  rw [(accountState_state env net rounds root ah s).2, traverse_snd]
  exact walk_fromNet rounds root _ s h

theorem storage_fromNet {env : Env} {net : Network} {s : Reader} (h : FromNet net s) (rounds : Nat) (root : Id)
    (address : Bytes) (slot : BitVec 256) : FromNet net (storage env net rounds root address slot s).2 := by
  have h1 := accountState_fromNet (env := env) h rounds root (env.trie.K address)
  unfold storage
  split
  · next h => rw [h] at h1; exact h1
  · next h => rw [h] at h1; exact h1
  · next h =>
    rw [h] at h1
    rw [storageAt_snd, traverse_snd]
    exact walk_fromNet rounds _ _ _ h1

end Verif.EvmState

namespace Verif.EthRpc
open Verif.ContentKey Verif.HistoryValue Verif.HistoryValidator Verif.Trie Verif.Props
open Verif.HeaderValidator (Net Summary)

variable {Hd Tx Rc Wd : Type}

theorem fetchHistory_ok {api : Api Hd Tx Rc Wd} {key : Legacy} {v : Value Hd Tx Rc Wd} (h : fetchHistory api key = .ok v) :
    ∃ bs, api.history key = some bs ∧ Value.decode api.lib api.net key bs = some v := by
  unfold fetchHistory at h
  split at h
  · cases h
  · next bs hb =>
    split at h
    · cases h
    · next v' hv => cases h; exact ⟨bs, hb, hv⟩

theorem fetchHeader_ok {api : Api Hd Tx Rc Wd} {key : Legacy} {hd : Hd} (h : fetchHeader api key = .ok hd) :
    ∃ bs p, api.history key = some bs ∧ Value.decode api.lib api.net key bs = some (.header hd p) := by
  unfold fetchHeader at h
  split at h
  · cases h
  · next h' p hf => cases h; obtain ⟨bs, h1, h2⟩ := fetchHistory_ok hf; exact ⟨bs, p, h1, h2⟩
  · cases h

theorem fetchBody_ok {api : Api Hd Tx Rc Wd} {k : Id} {b : Body Hd Tx Wd} (h : fetchBody api k = .ok b) :
    ∃ bs, api.history (.blockBody k) = some bs ∧ Value.decode api.lib api.net (.blockBody k) bs = some (.body b) := by
  unfold fetchBody at h
  split at h
  · cases h
  · next b' hf => cases h; exact fetchHistory_ok hf
  · cases h

theorem headerOf_iff {api : Api Hd Tx Rc Wd} {block : BlockId} {hd : Hd} :
    headerOf api block = .ok hd ↔ Answers api block hd := by
  constructor
  · intro h
    cases block with
    | hash k => obtain ⟨bs, p, h1, h2⟩ := fetchHeader_ok h; exact ⟨_, bs, p, rfl, h1, h2⟩
    | number n => obtain ⟨bs, p, h1, h2⟩ := fetchHeader_ok h; exact ⟨_, bs, p, rfl, h1, h2⟩
    | tag => cases h
  · rintro ⟨key, bs, p, hk, h1, h2⟩
    cases block with
    | hash k => simp only at hk; subst hk; simp only [headerOf, fetchHeader, fetchHistory, h1, h2]
    | number n => simp only at hk; subst hk; simp only [headerOf, fetchHeader, fetchHistory, h1, h2]
    | tag => exact hk.elim

theorem blockState_ok {api : Api Hd Tx Rc Wd} {block : BlockId} {net : EvmState.Network} {root : Id}
    (h : blockState api block = .ok (net, root)) :
    api.state = some net ∧ ∃ hd, headerOf api block = .ok hd ∧ root = api.stateRoot hd := by
  unfold blockState at h
  split at h
  · cases h
  · next net' hs =>
    split at h
    · cases h
    · next hd hh => cases h; exact ⟨hs, hd, hh, rfl⟩

theorem node_collision {api : Api Hd Tx Rc Wd} {net : EvmState.Network} (hs : api.state = some net)
    {s : EvmState.Reader} (hf : EvmState.FromNet net s) {db : List Bytes}
    (h : ByteCollision api.evm.trie.K s.nodes db) : NodeCollision api db := by
  obtain ⟨n, hn, b, hb, hne, hk⟩ := h
  simp only [EvmState.Reader.nodes, List.mem_filterMap] at hn
  obtain ⟨e, he, hen⟩ := hn
  split at hen
  · next n' hv =>
    cases hen
    obtain ⟨bs, h1, h2⟩ := hf e he
    rw [hv] at h2
    exact ⟨net, e.1, bs, n, hs, h1, h2, b, hb, hne, hk⟩
  · cases hen

end Verif.EthRpc
