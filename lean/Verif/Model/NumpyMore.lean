import Mathlib.Order.Defs.LinearOrder
import Mathlib.Algebra.Group.Defs
import Mathlib.Data.List.Sort
import Verif.Model.Numpy

/-!
# Further numpy primitives used by the metrics

Library functions, modelled by their documented behaviour (trusted base).
-/

namespace Verif.Np

variable {α : Type*}

/-- `np.searchsorted(xs, v, "right")` for a sorted `xs`: the number of leading entries
not above `v`. -/
def searchsortedRight [LinearOrder α] (xs : List α) (v : α) : Nat :=
  (xs.takeWhile (fun x => decide (x ≤ v))).length

/-- `np.diff` -/
def diff [Sub α] (xs : List α) : List α := List.zipWith (fun a b => b - a) xs xs.tail

/-- `np.sort` -/
def sort [LinearOrder α] (xs : List α) : List α := xs.insertionSort (· ≤ ·)

/-- `s` is a possible result of sorting the rows `l` by `key` (`np.argsort` or
`sort(order=...)`; rows with equal keys in any order). -/
structure SortedBy {β : Type*} [LE α] (key : β → α) (l s : List β) : Prop where
  perm : s.Perm l
  sorted : s.Pairwise (fun a b => key a ≤ key b)

/-- Entries of bin `i` of `np.histogram(xs, edges)`: half-open, but the last bin is
closed. -/
def inBin [LinearOrder α] (edges : List α) (i : Nat) (x : α) : Bool :=
  match edges[i]?, edges[i + 1]? with
  | some a, some b => decide (a ≤ x) && (decide (x < b) || (decide (i + 2 = edges.length) && decide (x = b)))
  | _, _ => false

/-- `np.histogram(xs, edges)[0]` for non-decreasing edges. -/
def histogram [LinearOrder α] (edges xs : List α) : List Nat :=
  (List.range (edges.length - 1)).map (fun i => xs.countP (inBin edges i))

end Verif.Np
