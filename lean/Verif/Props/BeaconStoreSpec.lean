import Verif.Model.BeaconStore

/-! # What the beacon store should hold after a history

Each record looks at one key only and reads the history from the oldest event on. -/

namespace Verif.Props.BeaconSpec
open Verif.BeaconStore

variable {U F O : Type}

/-- The bootstrap remembered for the header root `root`, with its slot: the first one that was
written, until a pruning with a later threshold. -/
def bootStep (c : Codec U F O) (root : Bytes) (rec : Option (Bytes × Nat)) : Op → Option (Bytes × Nat)
  | .put (.bootstrap _) v w =>
    rec.or ((c.decBoot v).bind fun x =>
      if x.2 = root ∧ x.1.toNat < 2 ^ 63 ∧ w 0 = true then some (v, x.1.toNat) else none)
  | .prune t => rec.filter fun x => decide (t ≤ x.2)
  | _ => rec

def bootRecord (c : Codec U F O) (root : Bytes) (hist : List Op) : Option (Bytes × Nat) :=
  hist.foldl (bootStep c root) none

/-- The update remembered for period `p`: the first one that was written for it. A batch given for
`start` and `count` has its `i`-th update for period `start + i`; nothing is written when the range
passes 2^64. -/
def updateStep (c : Codec U F O) (p : Nat) (rec : Option U) : Op → Option U
  | .put (.updates start count) v w =>
    rec.or ((c.decUpdates v).bind fun us =>
      if start.toNat + count.toNat < 2 ^ 64 ∧ start.toNat ≤ p ∧ p < start.toNat + count.toNat ∧
          p < 2 ^ 63 ∧ w (p - start.toNat) = true then us[p - start.toNat]? else none)
  | _ => rec

def updateRecord (c : Codec U F O) (p : Nat) (hist : List Op) : Option U :=
  hist.foldl (updateStep c p) none

/-- The last finality update put since the node started. -/
def finStep (c : Codec U F O) (rec : Option F) : Op → Option F
  | .put (.finality _) v _ => (c.decFin v).or rec
  | .restart => none
  | _ => rec

def finRecord (c : Codec U F O) (hist : List Op) : Option F := hist.foldl (finStep c) none

/-- The last optimistic update put since the node started. -/
def optStep (c : Codec U F O) (rec : Option O) : Op → Option O
  | .put (.optimistic _) v _ => (c.decOpt v).or rec
  | .restart => none
  | _ => rec

def optRecord (c : Codec U F O) (hist : List Op) : Option O := hist.foldl (optStep c) none

/-- The last summaries written, with the epoch of their key. -/
def sumStep (c : Codec U F O) (rec : Option (Nat × Bytes)) : Op → Option (Nat × Bytes)
  | .put (.summaries epoch) v w =>
    if c.decSum v = true ∧ epoch.toNat < 2 ^ 63 ∧ w 0 = true then some (epoch.toNat, v) else rec
  | _ => rec

def sumRecord (c : Codec U F O) (hist : List Op) : Option (Nat × Bytes) := hist.foldl (sumStep c) none

/-- An update survives its encoding. -/
def UpdateCodec (c : Codec U F O) : Prop := ∀ u, c.decUpdate (c.encUpdate u) = some u

end Verif.Props.BeaconSpec
