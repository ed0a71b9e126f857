import Verif.Model.OwnRecord

/-! # What C89 is stated with -/

namespace Verif.Props.OwnRecordSpec
open Verif Verif.OwnRecord

/-- The UPnP gateway is used: it is found, reports an external address and maps the port. -/
def Found (w : World) (ext : Ip) : Prop :=
  ∃ g from_, w.gateway = some g ∧ g.reachedFrom = some from_ ∧ g.external = some ext ∧ g.maps = true

/-- At most 16 different other nodes of a list fall into one bucket. -/
def Fits (own : Id) (ps : List Peer) : Prop :=
  ∀ ids : List Id, ids.Nodup → (∀ i ∈ ids, i ≠ own ∧ ∃ p ∈ ps, p.id = i) →
    (∀ i ∈ ids, ∀ j ∈ ids, distLog2 (xorDistance own i) = distLog2 (xorDistance own j)) → ids.length ≤ 16

end Verif.Props.OwnRecordSpec
