import Verif.Model.Provider

/-! # What the clients of execution and consensus nodes are expected to do -/

namespace Verif.Props.ProviderSpec
open Verif Verif.Provider
open Verif.E2store (Res)

/-- The requests in a log, oldest first. -/
def sends : List Act → List Request
  | [] => []
  | .send r :: l => r :: sends l
  | _ :: l => sends l

/-- `n` failed attempts at a request, each followed by a wait. -/
def failed (r : Request) (n : Nat) : List Act := (List.replicate n [Act.send r, .backoff]).flatten

/-- `extra` is what one provider is asked after `before`: the same request once, or up to four times as long as the failure
looks temporary. `a` is the last answer. -/
def Asked (w : World) (before : List Act) (r : Request) (extra : List Act) (a : Answer) : Prop :=
  ∃ n, n ≤ 3 ∧ extra = failed r n ++ [.send r] ∧ a = w (before ++ extra) ∧
    (∀ k, k < n → (w (before ++ failed r k ++ [.send r])).retry = true) ∧ (n < 3 → a.retry = false)

/-- What can be read from an answer of an execution node. -/
def readJson {α : Type} (parse : Bytes → Option α) (a : Answer) : Option α :=
  match a.response with
  | some ⟨_, some body⟩ => parse body
  | _ => none

/-- What can be read from an answer of a consensus node: SSZ or JSON as the content type says; lists only from JSON. -/
def readAs {T : Type} (codec : Codec T) (list : Bool) (a : Answer) : Option T :=
  match a.response with
  | some ⟨some t, some body⟩ =>
    if t = (chars% "application/json") then codec.json body
    else if t = (chars% "application/octet-stream") ∧ list = false then codec.ssz body
    else none
  | _ => none

/-- A call asked the primary provider with `rp`, and the fallback with `rf` after `wait` if and only if nothing could be read
from the primary; the outcome is what was read last. -/
def FirstOf {α : Type} (w : World) (rd : Answer → Option α) (rp rf : Request) (wait before after : List Act)
    (out : Option α) : Prop :=
  ∃ ep ap, Asked w before rp ep ap ∧
    ((∃ v, rd ap = some v ∧ out = some v ∧ after = before ++ ep) ∨
     (rd ap = none ∧ ∃ ef af, Asked w (before ++ ep ++ wait) rf ef af ∧ out = rd af ∧
        after = before ++ ep ++ wait ++ ef))

/-- A provider that can be addressed: the address has a host, and the credentials that are set can be put into a header. -/
def Valid (env : Env) (u : Url) : Prop :=
  (∃ h, u.host = some h) ∧
    (∀ s, env.clientId = some s ∨ env.clientSecret = some s → ∀ c ∈ s, (32 ≤ c.toNat ∧ c.toNat < 127) ∨ c = '\t')

/-- Path and query of an address, as they are sent. -/
def target (u : Url) : List Char :=
  match u.query with
  | none => u.path
  | some q => u.path ++ '?' :: q

/-- The name of the header that carries the secret. -/
def secretHeader : List Char := (chars% "cf-access-client-secret")

/-- The value of hexadecimal digits. -/
def hexValue (ds : List Char) : Nat :=
  ds.foldl (fun a c => a * 16 + if c.toNat ≤ 57 then c.toNat - 48 else c.toNat - 55) 0

/-- The call for the receipts of a block, with the given id. -/
def askReceipts (number id : Nat) : Call :=
  ⟨(chars% "eth_getBlockReceipts"), [.text (quantity number)], id⟩

variable {V Rc Blk : Type}

/-- What an answer carries under `result`. -/
def resultOf (lib : Lib V Rc Blk) (v : V) : Option V :=
  match lib.shape v with
  | .object r => r
  | _ => none

/-- An answer carries a value, and it is not null. -/
def Carries (lib : Lib V Rc Blk) (v r : V) : Prop :=
  lib.shape v = .object (some r) ∧ ∀ x, lib.shape r = x → x ≠ .null

/-- An answer says null. -/
def SaysNull (lib : Lib V Rc Blk) (v : V) : Prop :=
  ∃ r, lib.shape v = .object (some r) ∧ lib.shape r = .null

/-- `n` requests after one another were all answered with null, with a second after each of them. -/
def NullRounds (lib : Lib V Rc Blk) (x : Exec) (env : Env) (w : World) (c : Call) : Nat → List Act → List Act → Prop
  | 0, before, after => after = before
  | n + 1, before, after => ∃ mid v, x.try env w lib.parse (.one c) before = (mid, some v) ∧ SaysNull lib v ∧
      NullRounds lib x env w c n (mid ++ [.pause 1]) after

/-- The batches of a list of calls are sent one after another and every one of them is answered: by `answers`, one list of
values for each batch of ten. -/
def Batches (x : Exec) (env : Env) (w : World) (parseList : Bytes → Option (List V)) :
    List Call → List (List V) → List Act → List Act → Prop
  | calls, [], before, after => calls = [] ∧ after = before
  | calls, vs :: rest, before, after => calls ≠ [] ∧ ∃ mid,
      x.try env w parseList (.batch (calls.take 10)) before = (mid, some vs) ∧
      Batches x env w parseList (calls.drop 10) rest mid after

/-- The calls for the receipts of the given blocks: the id is the position. -/
def rangeAsked (numbers : List Nat) : List Call := numbers.zipIdx.map fun p => askReceipts p.1 (p.2 % 2 ^ 32)

/-- The topics of events. -/
def topics : List Topic := [.chainReorg, .head, .lightClientOptimisticUpdate, .finalizedCheckpoint]

end Verif.Props.ProviderSpec
