import Mathlib.Order.Defs.LinearOrder
import Mathlib.Data.List.Sort
import Mathlib.Data.List.FinRange

/-!
# numpy primitives used by the slicers

These are library functions (not code of the repository); they are modelled by
their documented behaviour and belong to the trusted base. A data column with
`n` rows is a function `Fin n → α`; row numbers are elements of `Fin n`.
-/

namespace Verif.Np

variable {α : Type*} [LinearOrder α] {n : Nat}

/-- `p` is a possible result of `np.argsort(vals)`: a permutation of the row
numbers along which the values are non-decreasing. The default sort of numpy
is not stable, so *any* order among ties is allowed. -/
structure IsArgsort (vals : Fin n → α) (p : List (Fin n)) : Prop where
  perm : p.Perm (List.finRange n)
  sorted : (p.map vals).Pairwise (· ≤ ·)

/-- A concrete argsort (insertion sort), used to show that `IsArgsort` can
always be met and to run examples. -/
def argsort (vals : Fin n → α) : List (Fin n) :=
  (List.finRange n).insertionSort (fun i j => vals i ≤ vals j)

/-- `np.searchsorted(xs, v, "left")` for a sorted `xs`: the number of leading
entries strictly below `v` (numpy: `a[i-1] < v <= a[i]`). -/
def searchsortedLeft (xs : List α) (v : α) : Nat :=
  (xs.takeWhile (fun x => decide (x < v))).length

/-- Python slice `xs[l:r]` for non-negative bounds. -/
def pySlice {β : Type*} (xs : List β) (l r : Nat) : List β :=
  (xs.take r).drop l

end Verif.Np
