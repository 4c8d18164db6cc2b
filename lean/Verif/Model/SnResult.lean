import Mathlib.Data.List.Sort
import Mathlib.Algebra.Order.Field.Basic

/-!
# The value of the metric of numbers of supernovae at a point

Model of the end of `SNNSNMetric.run`, `rubin_sim/maf/metrics/sn_n_sn_metric.py:276-324`, of `zlim` and `nsn`
(1254-1295), `check_dur_z` (1335-1358) and of the reductions (1146-1157). Tables of pandas are lists of rows; the
redshift limit and the number of supernovae of a season, from its efficiencies, are parameters (`zlim_or_nsn`, which is in
`Verif.Model.SnN`). Numbers are idealised; a median is that of sorted values.
-/

namespace Verif.SnResult

variable {K : Type*} [Field K] [LinearOrder K]

/-- `zlim` (1268-1273) and `nsn` (1290-1295): the value of a season, or the sentinel. -/
def seasonZ (effis : List K) (value : K) : K :=
  if 2 / 100 < effis.sum / effis.length ∧ 2 ≤ effis.length then value else -1

def seasonN (effis : List K) (value : K) : K :=
  if 2 / 100 < effis.sum / effis.length then value else -1

/-- `check_dur_z`, `sn_n_sn_metric.py:1354-1358`: rows (season, z) of seasons with at least two redshifts. -/
def checkDur (rows : List (Nat × K)) : List (Nat × K) :=
  rows.filter (fun r => decide (2 ≤ (rows.filter (fun q => decide (q.1 = r.1))).length))

/-- `metric_values.merge(nsn_zcomp)` on the season, `sn_n_sn_metric.py:306`: pairs of zcomp and nsn. -/
def merge (zs ns : List (Nat × K)) : List (K × K) :=
  zs.flatMap (fun r => (ns.filter (fun q => decide (q.1 = r.1))).map (fun q => (r.2, q.2)))

/-- `Series.median`. -/
def median (l : List K) : K :=
  let s := l.insertionSort (· ≤ ·)
  (s.getD ((l.length - 1) / 2) 0 + s.getD (l.length / 2) 0) / 2

/-- `sn_n_sn_metric.py:311-319`: number and redshift limit, `none` is the bad value. -/
def final (m : List (K × K)) : Option (K × K) :=
  let sel := m.filter (fun p => decide (0 < p.1))
  if 0 < sel.length then some ((sel.map Prod.snd).sum, median (sel.map Prod.fst)) else none

/-- From the estimate of redshifts, `sn_n_sn_metric.py:276-324`; the tables are `none` if `metric` gives None. The table of
redshifts is not empty. -/
def runSn (zs : Option (List (Nat × K))) (ns : List (Nat × K) → Option (List (Nat × K))) : Option (K × K) :=
  match zs with
  | none => none
  | some zs =>
    if zs.all (fun r => decide (r.2 < 0)) then none
    else match ns zs with
      | none => none
      | some ns => final (merge zs ns)

/-- `reducen_sn` and `reducezlim`, `sn_n_sn_metric.py:1146-1157`, of the one record of a point. -/
def reduceN (r : K × K) : K := ([r].map Prod.fst).sum
def reduceZ (bad : K) (r : K × K) : K := if median ([r].map Prod.snd) < 0 then bad else median ([r].map Prod.snd)

end Verif.SnResult
