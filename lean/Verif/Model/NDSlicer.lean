import Verif.Model.OneDSlicer

/-!
# `NDSlicer`

Models `rubin_sim/maf/slicers/nd_slicer.py`.
-/

namespace Verif.Slicers
open Verif.Np

/-- `itertools.product(*xss)` as a list of tuples, last position varying
fastest (used in `nd_slicer.py:86,96`). -/
def product {β : Type*} : List (List β) → List (List β)
  | [] => [[]]
  | xs :: xss => xs.flatMap (fun x => (product xss).map (x :: ·))

/-- One slicing dimension after the bins were chosen: the column, its bin edges
(`self.bins[d]`) and the result of `np.argsort` on the column. -/
structure Dim (α : Type*) (n : Nat) where
  vals : Fin n → α
  bins : List α
  perm : List (Fin n)

variable {α : Type*} [LinearOrder α] {n : Nat}

/-- `nd_slicer.py:102-121`: the `left` positions of one dimension; the last
entry is the number of rows. -/
def Dim.lefts (d : Dim α n) : List Nat :=
  d.bins.dropLast.map (searchsortedLeft (d.perm.map d.vals)) ++ [d.perm.length]

/-- `nd_slicer.py:130`: `self.sim_idxs[d][self.lefts[d][i] : self.lefts[d][i + 1]]`;
`none` is an `IndexError`. -/
def Dim.slice (d : Dim α n) (i : Nat) : Option (List (Fin n)) :=
  match d.lefts[i]?, d.lefts[i + 1]? with
  | some l, some r => some (pySlice d.perm l r)
  | _, _ => none

/-- `nd_slicer.py:93-98`: `slice_points["bin_idxs"]`, the tuple of bin numbers of
each slice; its length is `nslice` (`nd_slicer.py:76`). -/
def ndBinIdxs (dims : List (Dim α n)) : List (List Nat) :=
  product (dims.map (fun d => List.range (d.bins.length - 1)))

/-- `set.intersection(*sets)` for at least one set, as a list of members. The
order of `list(set)` is unspecified in Python; the model keeps the order of the
first operand. No operand at all is a `TypeError` (`none`). -/
def interAll : List (List (Fin n)) → Option (List (Fin n))
  | [] => none
  | s :: ss => some (s.filter (fun j => ss.all (fun t => decide (j ∈ t))))

/-- `nd_slicer.py:123-132`: the rows of slice number `islice`. -/
def ndSlice (dims : List (Dim α n)) (islice : Nat) : Option (List (Fin n)) := do
  let bidx ← (ndBinIdxs dims)[islice]?
  let sets ← (List.zip dims bidx).mapM (fun x => x.1.slice x.2)
  interAll sets

end Verif.Slicers
