import Verif.Model.QueryPool

/-! What a caller of the pool of lookups sees. -/

namespace Verif.Props
open Verif Verif.Query Verif.QueryPool

variable {I Q : Type}

/-- The lookups that were added, with the id and the information each was added under. -/
def added : List (Output I Q) → List (Nat × I)
  | [] => []
  | .added id info :: os => (id, info) :: added os
  | _ :: os => added os

/-- The lookups that polling returned, as finished or as timed out. -/
def returned : List (Output I Q) → List (Nat × I)
  | [] => []
  | .polled (.finished e) :: os => (e.id, e.info) :: returned os
  | .polled (.timeout e) :: os => (e.id, e.info) :: returned os
  | _ :: os => returned os

/-- The number of calls that add a lookup. -/
def adds : List (QueryPool.Event I Q) → Nat
  | [] => 0
  | .add _ _ :: es => adds es + 1
  | _ :: es => adds es

/-- The lookups in the pool. -/
def inPool (p : Pool I Q) : List (Nat × I) := p.queries.map (fun e => (e.id, e.info))

end Verif.Props
