import Mathlib.Data.List.Basic

/-!
# Model of masked metric values, `reduce_metric` and `compute_summary_stats`
(`rubin_sim/maf/metric_bundles/metric_bundle.py:622-770`)

Not modelled: plot/display dictionaries, file names, exceptions inside reducers
and summary metrics, the results database calls (see `Model/ResultsDb.lean`).
-/

namespace Verif.Masked

/-- `numpy.ma.MaskedArray`: data and mask of equal length. -/
structure MArr (V : Type*) where
  data : List V
  mask : List Bool
  len : data.length = mask.length

variable {V R : Type*}

/-- `MaskedArray.compressed()`: the unmasked data in order. -/
def MArr.compressed (m : MArr V) : List V :=
  ((m.data.zip m.mask).filter (fun x => !x.2)).map Prod.fst

/-- `MaskedArray.filled(v)`. -/
def MArr.filled (m : MArr V) (v : V) : List V :=
  (m.data.zip m.mask).map (fun x => if x.2 then v else x.1)

/-- `metric_bundle.py:761-767`: the loop over slices. `garbage` is the content of
`np.empty(len(slicer))`; `isBad` is `val == newmetric.badval`. Arrays are traversed
together, position by position. -/
def reduceLoop (f : V → R) (isBad : R → Bool) : List V → List Bool → List R → List R × List Bool
  | v :: vs, m :: ms, g :: gs =>
    let rest := reduceLoop f isBad vs ms gs
    if !m then
      let val := f v
      (val :: rest.1, (if isBad val then true else m) :: rest.2)
    else (g :: rest.1, m :: rest.2)
  | _, _, gs => (gs, [])

theorem reduceLoop_len (f : V → R) (isBad : R → Bool) : ∀ (vs : List V) (ms : List Bool) (gs : List R),
    vs.length = ms.length → gs.length = ms.length →
    (reduceLoop f isBad vs ms gs).1.length = (reduceLoop f isBad vs ms gs).2.length
  | [], [], [], _, _ => rfl
  | v :: vs, m :: ms, g :: gs, h1, h2 => by
    have ih := reduceLoop_len f isBad vs ms gs (by simpa using h1) (by simpa using h2)
    unfold reduceLoop
    cases m <;> simp [ih]

/-- `metric_bundle.py:672-767`: metric values of the reduced bundle. -/
def reduceMetric (f : V → R) (isBad : R → Bool) (m : MArr V) (garbage : List R)
    (hg : garbage.length = m.mask.length) : MArr R where
  data := (reduceLoop f isBad m.data m.mask garbage).1
  mask := (reduceLoop f isBad m.data m.mask garbage).2
  len := reduceLoop_len f isBad _ _ _ m.len hg

/-- A summary metric: its (cleaned) name, the `mask_val` attribute if it has one,
and `run` on the array of values. -/
structure Summary (V S : Type*) where
  name : String
  maskVal : Option V
  run : List V → S

/-- `metric_bundle.py:634-658`: `summary_values` after the loop, as an association
list with dictionary semantics (assignment to an existing key replaces). -/
def dictSet {S : Type*} (d : List (String × S)) (k : String) (v : S) : List (String × S) :=
  if d.any (fun e => e.1 == k) then d.map (fun e => if e.1 == k then (k, v) else e) else d ++ [(k, v)]

def dictGet {S : Type*} (d : List (String × S)) (k : String) : Option S :=
  (d.find? (fun e => e.1 == k)).map Prod.snd

/-- `metric_bundle.py:644-657`: the value of one summary metric. -/
def summaryValue {S : Type*} (slicerBad : S) (m : MArr V) (s : Summary V S) : S :=
  let rarr := match s.maskVal with
    | some v => m.filled v
    | none => m.compressed
  if rarr.length = 0 then slicerBad else s.run rarr

/-- `metric_bundle.py:622-670`. -/
def computeSummaryStats {S : Type*} (slicerBad : S) (m : MArr V) (ss : List (Summary V S))
    (start : List (String × S)) : List (String × S) :=
  ss.foldl (fun d s => dictSet d s.name (summaryValue slicerBad m s)) start

end Verif.Masked
