import Verif.Model.Distance

/-!
# The ephemeral history bridge (`bin/portal-bridge/src/bridge/ephemeral_history/`)

The bridge listens to a beacon node. On a new head it downloads the head and its ancestors with their receipts. On an
optimistic update it offers the last blocks to the network (headers, bodies, receipts). When a period is final it offers
its headers with proofs.

What is not modelled here: the selection of peers and the sending of offers (C45, C47, C64), the building of proofs
(C50), and the spawning of tasks: an effect below is the call of the gossiper with all that it sends. The network
answers are inputs. Arithmetic on slots wraps as in a release build.
-/

namespace Verif.Ephemeral

/-- `TOTAL_BUFFER_COUNT` (ephemeral_history/mod.rs:41). -/
def totalBufferCount : Nat := 1 + 4 + 8

/-- `SLOTS_PER_EPOCH` (consensus/constants.rs). -/
def slotsPerEpoch : Nat := 32

/-- `SLOTS_PER_HISTORICAL_ROOT` (consensus/constants.rs). -/
def slotsPerPeriod : Nat := 8192

/-- The size of the cache of receipts (mod.rs:78-81). -/
def receiptsCapacity : Nat := slotsPerEpoch * 2

/-- `first_slot_in_a_period` (ethereum-rpc-client/src/consensus/mod.rs:446-448). -/
def firstSlotInPeriod (slot : Nat) : Nat := slot / slotsPerPeriod * slotsPerPeriod

/-- What the bridge looks at in a beacon block; `payload` stands for the rest. -/
structure Block where
  slot : Nat
  parent : Id
  number : Nat
  payload : Nat
deriving DecidableEq, Repr

/-- `root` is `tree_hash_root`. `builds` says whether the transactions decode and the header that is built has the
block hash of the payload (ephemeral_bundle.rs:51-66). -/
structure Rules where
  root : Block → Id
  builds : Block → Bool

/-- The answers of the beacon node and of the execution node during one event: a block by its root, and the receipts
for a block number that are asked for after the block with that root was downloaded. `none` is an error. -/
structure Api (R : Type) where
  block : Id → Option Block
  receipts : Id → Nat → Option R

/-- `EphemeralHistoryBridge` (mod.rs:43-49). `receipts` is the LRU cache by block number, latest used first. -/
structure State (R : Type) where
  blocks : List (Id × Block)
  receipts : List (Nat × R)

/-- `EphemeralHistoryBridge::new` (mod.rs:52-83). -/
def init {R : Type} : State R := { blocks := [], receipts := [] }

/-- `BTreeMap::get`. -/
def lookup (m : List (Id × Block)) (r : Id) : Option Block := (m.find? fun e => e.1 = r).map (·.2)

/-- `BTreeMap::remove`. -/
def remove (m : List (Id × Block)) (r : Id) : List (Id × Block) := m.filter fun e => e.1 ≠ r

section
variable {R : Type}

/-- `LruCache::push`: the entry becomes the latest; when the cache is full the one used longest ago goes. -/
def lruPush (cap : Nat) (l : List (Nat × R)) (k : Nat) (v : R) : List (Nat × R) :=
  (k, v) :: (l.filter fun e => e.1 ≠ k).take (cap - 1)

/-- `LruCache::get`: the entry becomes the latest. -/
def lruGet (l : List (Nat × R)) (k : Nat) : Option (R × List (Nat × R)) :=
  match l.find? fun e => e.1 = k with
  | none => none
  | some e => some (e.2, e :: l.filter fun e => e.1 ≠ k)

/-- `get_or_download_beacon_block` (mod.rs:228-253). The answer of the beacon node is stored under the root that was
asked for. On an error nothing is stored. -/
def getOrDownload (api : Api R) (s : State R) (r : Id) : Option (State R × Block) :=
  match lookup s.blocks r with
  | some b => some (s, b)
  | none =>
    match api.block r with
    | none => none
    | some b =>
      match api.receipts r b.number with
      | none => none
      | some rc =>
        some ({ blocks := (r, b) :: s.blocks, receipts := lruPush receiptsCapacity s.receipts b.number rc }, b)

/-- The loop of `process_head` (mod.rs:145-153): what was downloaded before an error stays. -/
def download (api : Api R) : Nat → State R → Id → State R
  | 0, s, _ => s
  | n + 1, s, r =>
    match getOrDownload api s r with
    | none => s
    | some (s', b) => download api n s' b.parent

/-- `EphemeralBundle::next_parent_root` (ephemeral_bundle.rs:32-42). The field of the header is set from the beacon
block (builders/header.rs:171). -/
def nextParentRoot (head : Id) (bundle : List (Block × R)) : Id :=
  match bundle.getLast? with
  | some (b, _) => b.parent
  | none => head

/-- The result of adding blocks to a bundle. -/
inductive Appended (R : Type) where
  | ok (s : State R) (bundle : List (Block × R))
  | error (s : State R)
  | panic

/-- `append_next_block_to_ephemeral_bundle` (mod.rs:255-285) with `push_parent` (ephemeral_bundle.rs:44-79). -/
def appendNext (u : Rules) (s : State R) (head : Id) (bundle : List (Block × R)) : Appended R :=
  match lookup s.blocks (nextParentRoot head bundle) with
  | none => .error s
  | some b =>
    match lruGet s.receipts b.number with
    | none => .error s
    | some (rc, l) =>
      if nextParentRoot head bundle = u.root b then
        if u.builds b then .ok { s with receipts := l } (bundle ++ [(b, rc)]) else .panic
      else .error { s with receipts := l }

/-- The loop of `process_light_client_optimistic_update` (mod.rs:173-175). -/
def fill (u : Rules) (head : Id) : Nat → State R → List (Block × R) → Appended R
  | 0, s, bundle => .ok s bundle
  | n + 1, s, bundle =>
    match appendNext u s head bundle with
    | .ok s' bundle' => fill u head n s' bundle'
    | .error s' => .error s'
    | .panic => .panic

/-- The result of taking the blocks of a final period. -/
inductive Walked where
  | ok (m : List (Id × Block)) (blocks : List Block)
  | error (m : List (Id × Block))

/-- The loop that takes the ancestors of the final block (mod.rs:206-214). A block is removed before its period is
checked. `fuel` bounds the number of blocks in the map. -/
def walk (first : Nat) : Nat → List (Id × Block) → Id → List Block → Walked
  | 0, m, _, acc => .ok m acc
  | fuel + 1, m, r, acc =>
    match lookup m r with
    | none => .ok m acc
    | some b =>
      if firstSlotInPeriod b.slot = first then walk first fuel (remove m r) b.parent (acc ++ [b])
      else .error (remove m r)

/-- What the bridge is told (mod.rs:99-142). The root of the head of an update is computed from the header in it
(mod.rs:164-172). -/
inductive Event (R : Type) where
  | head (block : Id) (api : Api R)
  | update (head : Id)
  | final (epoch : Nat) (block : Id) (state : Id)

/-- What the bridge offers to the network: the blocks of a bundle with their receipts (gossiper.rs:68-109), or the
headers of beacon blocks with proofs from a beacon state (gossiper.rs:113-153). -/
inductive Effect (R : Type) where
  | bundle (head : Id) (blocks : List (Block × R))
  | headers (state : Id) (blocks : List Block)

/-- `process_light_client_optimistic_update` (mod.rs:155-181). -/
def processUpdate (u : Rules) (s : State R) (head : Id) : Option (State R × List (Effect R)) :=
  if s.blocks.isEmpty then some (s, [])
  else
    match fill u head totalBufferCount s [] with
    | .ok s' bundle => some (s', [.bundle head bundle])
    | .error s' => some (s', [])
    | .panic => none

/-- `process_finalized_checkpoint` (mod.rs:183-226). -/
def processFinal (s : State R) (epoch : Nat) (block state : Id) : State R × List (Effect R) :=
  if epoch % (slotsPerPeriod / slotsPerEpoch) ≠ 0 then (s, [])
  else
    match lookup s.blocks block with
    | none => (s, [])
    | some b =>
      match walk (firstSlotInPeriod ((epoch + 2 ^ 64 - 1) % 2 ^ 64 * slotsPerEpoch % 2 ^ 64)) s.blocks.length s.blocks
          b.parent [] with
      | .error m => ({ s with blocks := m }, [])
      | .ok m blocks =>
        ({ s with blocks := m.filter fun e => epoch * slotsPerEpoch % 2 ^ 64 ≤ e.2.slot }, [.headers state blocks])

/-- One round of `launch` (mod.rs:99-142); `none` when the process panics. -/
def step (u : Rules) (s : State R) : Event R → Option (State R × List (Effect R))
  | .head r api => some (download api totalBufferCount s r, [])
  | .update head => processUpdate u s head
  | .final epoch block state => some (processFinal s epoch block state)

/-- `launch`: all events, and everything that was offered. -/
def run (u : Rules) : State R → List (Event R) → Option (State R × List (Effect R))
  | s, [] => some (s, [])
  | s, e :: es =>
    match step u s e with
    | none => none
    | some (s', out) =>
      match run u s' es with
      | none => none
      | some (s'', out') => some (s'', out ++ out')

end
end Verif.Ephemeral
