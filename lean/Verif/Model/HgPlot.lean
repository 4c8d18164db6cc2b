import Mathlib.Algebra.Order.Floor.Defs
import Mathlib.Algebra.Order.Field.Basic

/-!
# Hourglass plots, second generation

`rubin_sim/maf/plots/hg_plotters.py`.

Times are days (MJD) in an ordered field.  A wall clock time is the MJD with the same digits: `local_times.to_julian_date()` is the date of the clock of
the time zone, whose distance `off` from UTC (in days) is constant here; so is `Timestamp.to_julian_date()`, which takes no account of the zone.  UT1 is not
distinguished from UTC.  Colours, patches and axes are arbitrary values; drawing is not modelled.
-/

namespace Verif.HgPlot

inductive PyErr
  | value | type | key | index | assertion | unbound
  deriving DecidableEq, Repr

/-! ## Nights and hours -/

section
variable {K : Type*} [Field K] [LinearOrder K] [FloorRing K]

/-- `_compute_hours_after_midnight` (`hg_plotters.py:902-906`), from the wall clock MJD: the Julian date is 2400000.5 more. -/
def civil (m : K) : ℤ × K :=
  let jd := m + 4800001 / 2
  let night := ⌊jd - 2400001⌋
  (night, (jd - 4800003 / 2 - (night : K)) * 24)

/-- `Angle(x).wrap_at(180 * u.deg)` -/
def wrap180 (x : K) : K := x - 360 * (⌊(x + 180) / 360⌋ : K)

/-- `_compute_hours_after_solar_midnight` (`hg_plotters.py:929-942`) at time `t`, for the longitude in degrees. -/
def solar (off lon t : K) : ℤ × K :=
  let solarDay := t + lon / 360
  let hours := wrap180 (solarDay * 360) * 24 / 360
  let jd := (t + off) + 4800001 / 2
  (⌊jd - 2400001⌋, hours)

/-- `_plot_dates` for a month (`hg_plotters.py:485-489`, `515-516`): `first` is the MJD of the first day of the month and `next` of the first day of the
next one. -/
def inMonth (first next : ℤ) (t : K) : Bool :=
  let start := (first : K) + 1 / 2
  let stop := (next : K) + 1 / 2
  decide (start < t) && decide (t < stop)

/-- The row of a bar (`hg_plotters.py:264`, `487`, `517`, its middle): the reference is the day before the first of the month. -/
def row (off : K) (first : ℤ) (t : K) : K := ((civil (t + off)).1 : K) - ((first : K) - 1) - 2 / 5 + 4 / 5 / 2

/-- The row of the lines of twilight and transits of a night (`hg_plotters.py:206`, `209-211`, `563`, `1053`), when the lower limit of the axis is `yMin`. -/
def lineRow (yMin : K) (epoch night : ℤ) : K :=
  let start := yMin + (epoch : K) + 1 / 2
  (night : K) - start + 1

/-- The row of a bar of a night (`hg_plotters.py:264`). -/
def barRow (epoch night : ℤ) : K := (night : K) - (epoch : K) - 2 / 5 + 4 / 5 / 2

/-- One step towards a transit (`hg_plotters.py:968-971`, `997-1000`): the hour angle of the body is `a` at time 0 and grows by `360 * r` in a day. -/
def transitStep (a r t : K) : K := t - wrap180 (a + 360 * r * t) / 360

/-- `_compute_moon_transit_mjds` (`hg_plotters.py:993-1001`). -/
def moonTransit (a r t : K) : K := (List.range 3).foldl (fun x _ => transitStep a r x) t

end

/-! ## Lines without wrapping -/

section
variable {K : Type*} [LinearOrder K]

/-- The running sum of `np.diff(hams, prepend=hams[0]) < 0` (`hg_plotters.py:1046`), after `prev` and with the sum `k` so far. -/
def labels (prev : K) (k : ℕ) : List K → List (ℕ × K)
  | [] => []
  | x :: xs =>
    let k' := if x < prev then k + 1 else k
    (k', x) :: labels x k' xs

/-- The lines that are drawn (`hg_plotters.py:1046-1059`, `1072-1081`). -/
def lines (xs : List K) : List (List K) :=
  match xs with
  | [] => []
  | x :: _ =>
    let ls := labels x 0 xs
    let ks := (List.range xs.length).filter (fun k => (ls.map Prod.fst).contains k)
    ks.map (fun k => (ls.filter (fun p => decide (p.1 = k))).map Prod.snd)

end

/-! ## Colours -/

section
variable {K : Type*} [Field K] [LinearOrder K]

/-- `_map_colors` (`hg_plotters.py:291-305`) of values of which there is one: the places in the colour map and the limits of the colour bar.  The limits are
not bound if all values are equal. -/
def mapColors (limits : Option (K × K)) (v : K) (vs : List K) : Except PyErr (List K × (K × K)) :=
  let hi := vs.foldl max v
  let lo := vs.foldl min v
  if hi = lo then .error .unbound
  else
    let lim := limits.getD (lo, hi)
    .ok ((v :: vs).map (fun x => (x - lim.1) / (lim.2 - lim.1)), lim)

/-- The months of a year (`hg_plotters.py:726-734`, `177-198`): the places of each and what the last one gives for the colour bar. -/
def yearColors (limits : Option (K × K)) : List (List K) → Except PyErr (List (List K) × Option (K × K))
  | [] => .ok ([], none)
  | m :: ms =>
    match (match m with
      | [] => Except.ok (([] : List K), (none : Option (K × K)))
      | v :: vs => match mapColors limits v vs with
        | .error e => .error e
        | .ok (c, lim) => .ok (c, some lim)) with
    | .error e => .error e
    | .ok (c, lim) => match yearColors limits ms with
      | .error e => .error e
      | .ok (cs, last) => .ok (c :: cs, if ms = [] then lim else last)

end

section
variable {C : Type*} [DecidableEq C]

/-- Setting an entry of a dictionary. -/
def put {V : Type*} : List (String × V) → String → V → List (String × V)
  | [], k, v => [(k, v)]
  | (k', v') :: l, k, v => if k' = k then (k, v) :: l else (k', v') :: put l k v

/-- The colours that may be used (`hg_plotters.py:853-864`). -/
def available (cmap : ℕ → C) (gray : C → Bool) (used : List C) : List ℕ → List ℕ → Except PyErr (List ℕ)
  | [], av => .ok av
  | i :: is, av =>
    let av := if gray (cmap i) then av.erase i else av
    if used.contains (cmap i) then
      if av.contains i then available cmap gray used is (av.erase i) else .error .value
    else available cmap gray used is av

/-- The loop over the colours that are wanted (`hg_plotters.py:866-871`). -/
def assign (cmap : ℕ → C) : List (String × ℕ) → List ℕ → List (String × C) → Except PyErr (List ℕ × List (String × C))
  | [], av, m => .ok (av, m)
  | (use, i) :: l, av, m =>
    if av.contains i then assign cmap l (av.erase i) (put m use (cmap i))
    else match m.lookup use with
      | none => .error .key
      | some c => if c = cmap i then assign cmap l av m else .error .assertion

/-- The loop over the categories (`hg_plotters.py:873-877`). -/
def fill (cmap : ℕ → C) : List String → List ℕ → List (String × C) → Except PyErr (List (String × C))
  | [], _, m => .ok m
  | use :: l, av, m =>
    match m.lookup use with
    | some _ => fill cmap l av m
    | none => match av with
      | [] => .error .index
      | i :: av => fill cmap l av (put m use (cmap i))

/-- `_assign_category_colors` (`hg_plotters.py:850-879`) with `N` colours. -/
def categoryColors (cmap : ℕ → C) (gray : C → Bool) (N : ℕ) (uses : List String) (useColors : List (String × C)) (assigned : List (String × ℕ)) :
    Except PyErr (List (String × C)) :=
  match available cmap gray (useColors.map Prod.snd) (List.range N) (List.range N) with
  | .error e => .error e
  | .ok av => match assign cmap assigned av useColors with
    | .error e => .error e
    | .ok (av, m) => fill cmap uses av m

/-- The colour maps of the months (`hg_plotters.py:726-729`, `786-792`) with values, of which those of each month are `np.unique`; the last of them is kept
for the legend. -/
def monthMaps (cmap : ℕ → C) (gray : C → Bool) (N : ℕ) (assigned : List (String × ℕ)) : List (List String) → Except PyErr (List (List (String × C)))
  | [] => .ok []
  | m :: ms =>
    match categoryColors cmap gray N m [] assigned with
    | .error e => .error e
    | .ok c => match monthMaps cmap gray N assigned ms with
      | .error e => .error e
      | .ok cs => .ok (c :: cs)

end

/-! ## Legend -/

/-- `_add_figure_legend` (`hg_plotters.py:396-422`): the labels with their handles; `patches` for the colours, `auto` from the axes. -/
def legend {H : Type*} (patches auto : List (String × H)) (wanted : Option (List String)) : List (String × H) :=
  let d := patches.foldl (fun d p => match wanted with
    | some w => if w.contains p.1 then put d p.1 p.2 else d
    | none => put d p.1 p.2) []
  let d := auto.foldl (fun d p => put d p.1 p.2) d
  let desired := match wanted with
    | some w => w
    | none => d.map Prod.fst
  desired.filterMap (fun l => (d.lookup l).map (fun h => (l, h)))

/-! ## Which plot -/

inductive Kind
  | general | range | month | year
  deriving DecidableEq, Repr

/-- `_plot` of the classes (`hg_plotters.py:147-150`, `613-616`, `667-670`, `718-734`): `drawn` is what happens while the data are drawn.  The labels of the
axes (`hg_plotters.py:93`) are called with one argument too many by two of them, and the first has no reference date (`hg_plotters.py:152,206`, `264`). -/
def plot (k : Kind) (drawn : Except PyErr Unit) : Except PyErr Unit :=
  match k with
  | .general => .error .type
  | .range => match drawn with
    | .error e => .error e
    | .ok _ => .error .type
  | .month | .year => drawn

end Verif.HgPlot
