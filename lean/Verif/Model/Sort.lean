/-! # Stable sorting

Model of the stable sorts of the standard library and of itertools (`sort_by`, `sorted`,
`sorted_by_cached_key`): insertion sort that keeps the order of equal elements. Every stable sort
computes the same list. -/

namespace Verif

/-- Inserts `a` before the first element that is not smaller. -/
def insertBy {α : Type} (le : α → α → Bool) (a : α) : List α → List α
  | [] => [a]
  | b :: l => if le a b then a :: b :: l else b :: insertBy le a l

def sortBy {α : Type} (le : α → α → Bool) : List α → List α
  | [] => []
  | a :: l => insertBy le a (sortBy le l)

end Verif
