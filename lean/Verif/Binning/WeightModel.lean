import Verif.Binning.Model

/-!
# Model: histogram tables of events whose weights may be NaN or infinite

`Binning/Model` has finite weights. `np.histogram(x, bins, weights=w)` with explicit bin edges makes the cumulative sums of the weights in the order of `x`, takes them at the edges and returns the differences; so a weight that is
NaN or infinite also matters for other bins than its own.
-/
set_option linter.unusedSectionVars false

namespace Pyirf.Binning
open Pyirf
variable {K : Type*}

/-- A row of the event table, the weight being any floating point number (compare `Event`). -/
structure WEvent (K : Type*) where
  key : FV K
  weight : FV K
  particle : String

/-- An event table (compare `EventTable`). -/
structure WEventTable (K : Type*) where
  hasWeight : Bool
  hasParticle : Bool
  rows : List (WEvent K)

/-- The output of `create_histogram_table`. -/
structure WHistTable (K : Type*) where
  low : List (FV K)
  high : List (FV K)
  center : List (FV K)
  cols : Cols (FV K)

section
variable [Field K] [LinearOrder K]

/-- A sum of floating point numbers, without rounding (then the order of the terms does not matter: `fsum_perm`). -/
def fsum (l : List (FV K)) : FV K := l.foldr (· + ·) (.fin 0)

/-- `np.diff` -/
def fdiff (l : List (FV K)) : List (FV K) := List.zipWith (fun b a => b - a) l.tail l

/-- Sum of the weights of the entries whose value satisfies `p`. -/
def wsumF (p : FV K → Bool) (xs : List (FV K × FV K)) : FV K := fsum ((xs.filter (fun v => p v.1)).map Prod.snd)

/-- The cumulative weights at the edges (numpy: `cw[bin_index]` with `cw = [0, cumsum(sorted weights)]`, `searchsorted` left, for the last edge right). -/
def histCumF (edges : List (FV K)) (xs : List (FV K × FV K)) : List (FV K) :=
  edges.dropLast.map (fun e => wsumF (fun x => FV.sortLt x e) xs)
    ++ (edges.getLast?.toList).map (fun e => wsumF (fun x => !FV.sortLt e x) xs)

/-- `np.histogram(x, bins, weights=w)` for explicit bin edges. -/
def histogramF (edges : List (FV K)) (xs : List (FV K × FV K)) : Except Err (List (FV K)) :=
  if Np.anyDescent edges then .error .valueError else .ok (fdiff (histCumF edges xs))

/-- values with weight 1 -/
def unitWeightsF (evs : List (WEvent K)) : List (FV K × FV K) := evs.map fun e => (e.key, .fin 1)
/-- values with their weights -/
def withWeightsF (evs : List (WEvent K)) : List (FV K × FV K) := evs.map fun e => (e.key, e.weight)

/-- The group keys of `events.group_by("particle_type")`. -/
def groupKeysF (evs : List (WEvent K)) : List String := ((evs.map WEvent.particle).dedup).insertionSort (· ≤ ·)

/-- The two columns written for one particle type, /repo/pyirf/binning.py:220-232. -/
def addParticleF (bins : List (FV K)) (hasWeight : Bool) (evs : List (WEvent K)) (c : Cols (FV K)) (p : String) : Except Err (Cols (FV K)) := do
  let group := evs.filter (fun e => e.particle = p)
  let n ← histogramF bins (unitWeightsF group)
  let c1 := c.set ("n_" ++ p) n
  let w ← if hasWeight then histogramF bins (withWeightsF group) else pure n
  pure (c1.set ("n_" ++ p ++ "_weighted") w)

/-- `create_histogram_table(events, bins, key)`, /repo/pyirf/binning.py:183-234, for any weights. -/
def createHistogramTableF (events : WEventTable K) (bins : List (FV K)) : Except Err (WHistTable K) := do
  let n ← histogramF bins (unitWeightsF events.rows)
  let c0 : Cols (FV K) := fun _ => none
  let c1 := c0.set "n" n
  let w ← if events.hasWeight then histogramF bins (withWeightsF events.rows) else pure n
  let c2 := c1.set "n_weighted" w
  let c3 ← if events.hasParticle && decide (0 < events.rows.length) then
      (groupKeysF events.rows).foldlM (addParticleF bins events.hasWeight events.rows) c2
    else pure c2
  pure ⟨bins.dropLast, bins.tail, binCenter bins, c3⟩

end

end Pyirf.Binning
