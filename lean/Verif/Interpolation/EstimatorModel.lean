import Verif.Interpolation.QuantileModel
import Mathlib.Analysis.SpecialFunctions.Log.Basic
import Mathlib.Data.List.Sort

/-!
# Model of /repo/pyirf/interpolation/component_estimators.py

Arrays with a leading axis for the grid points are lists of rows of any type `ρ`; estimates have any type `β`. Interpolator and extrapolator classes are the
functions that construct them: they may raise, and so may the objects they return. What scipy's `Delaunay` computes and numpy's `argsort` are arguments.
-/
set_option linter.unusedSectionVars false

namespace Pyirf.Interpolation
open Pyirf Pyirf.Np

/-- The argument `grid_points`: no array, an array of dtype object, an array of a dtype that cannot be cast to float, an array without axes, with one axis, or
with two axes (`d` is the length of the second one, also for an array without rows). Simplification: arrays with more axes are not modelled. -/
inductive GridArg
  | notArray | objectDtype | notFloat | scalar
  | oneD (pts : List ℝ)
  | twoD (d : ℕ) (pts : List (List ℝ))

/-- The argument `target_point`. -/
inductive TargetArg
  | notArray | scalar
  | oneD (t : List (FV ℝ))
  | twoD (d : ℕ) (rows : List (List (FV ℝ)))

/-- An argument that must be an array with a leading axis. -/
inductive ArrArg (ρ : Type*)
  | notArray | scalar
  | rows (l : List ρ)

/-- The grid: a list of points. -/
abbrev Grid := List (List ℝ)

/-- An object that can be called with a target point. -/
abbrev Callable (β : Type*) := List (FV ℝ) → Except Err β

/-- The argument `interpolator_cls` or `extrapolator_cls`: no subclass of the required base class, or a constructor taking the grid and the templates. The keyword
arguments are part of the constructor. -/
inductive ClsArg (ρ β : Type*)
  | notSubclass
  | cls (mk : Grid → List ρ → Except Err (Callable β))

/-- The checks of `BaseComponentEstimator.__init__` and the reshape, /repo/pyirf/interpolation/component_estimators.py:63-83: the dimension and the points. -/
def checkGrid : GridArg → Except Err (ℕ × Grid)
  | .notArray => .error .typeError
  | .objectDtype => .error .typeError
  | .notFloat => .error .typeError
  | .scalar => .error .indexError
  | .oneD pts => if pts.length < 1 + 1 then .error .valueError else .ok (1, pts.map fun x => [x])
  | .twoD d pts => if pts.length < d + 1 then .error .valueError else .ok (d, pts)

/-- A component estimator after construction: `grid_dim`, `grid_points`, whether `find_simplex` finds a simplex, the interpolator and the extrapolator. -/
structure Estimator (β : Type*) where
  dim : ℕ
  grid : Grid
  inHull : List (FV ℝ) → Bool
  interpolator : Callable β
  extrapolator : Option (Callable β)

/-- `BaseComponentEstimator.__init__`, /repo/pyirf/interpolation/component_estimators.py:44-88; `delaunay` may fail (QhullError) for more than one dimension. -/
def baseInit (delaunay : Grid → Except Err (List (FV ℝ) → Bool)) (g : GridArg) : Except Err (ℕ × Grid × (List (FV ℝ) → Bool)) :=
  match checkGrid g with
  | .error e => .error e
  | .ok (d, pts) =>
    if 1 < d then
      match delaunay pts with
      | .error e => .error e
      | .ok h => .ok (d, pts, h)
    else .ok (d, pts, fun _ => false)

/-- `a[inds]` for the rows of an array. -/
def takeRows {ρ : Type*} (l : List ρ) (inds : List ℕ) : List ρ := inds.filterMap fun i => l[i]?

/-- the coordinate of a one-dimensional point -/
def coord (x : List ℝ) : ℝ := x.headD 0

/-- Sorting of the grid points and templates in one dimension, /repo/pyirf/interpolation/component_estimators.py:242-247 and 345-350. -/
def sortRows {ρ : Type*} (argsort : List ℝ → List ℕ) (d : ℕ) (grid : Grid) (rows : List ρ) : Grid × List ρ :=
  if d = 1 then (takeRows grid (argsort (grid.map coord)), takeRows rows (argsort (grid.map coord))) else (grid, rows)

/-- Construction of interpolator and extrapolator, /repo/pyirf/interpolation/component_estimators.py:255-273 and 358-376. -/
def buildEstimator {ρ β : Type*} (d : ℕ) (hull : List (FV ℝ) → Bool) (grid : Grid) (rows : List ρ) (interp : ClsArg ρ β) (extrap : Option (ClsArg ρ β)) : Except Err (Estimator β) :=
  match interp with
  | .notSubclass => .error .typeError
  | .cls mk => match mk grid rows with
    | .error e => .error e
    | .ok i => match extrap with
      | none => .ok ⟨d, grid, hull, i, none⟩
      | some .notSubclass => .error .typeError
      | some (.cls mk') => match mk' grid rows with
        | .error e => .error e
        | .ok x => .ok ⟨d, grid, hull, i, some x⟩

/-- `ParametrizedComponentEstimator.__init__`, /repo/pyirf/interpolation/component_estimators.py:285-376. -/
def parametrizedInit {ρ β : Type*} (argsort : List ℝ → List ℕ) (delaunay : Grid → Except Err (List (FV ℝ) → Bool)) (g : GridArg) (params : ArrArg ρ) (interp : ClsArg ρ β)
    (extrap : Option (ClsArg ρ β)) : Except Err (Estimator β) :=
  match baseInit delaunay g with
  | .error e => .error e
  | .ok (d, grid, hull) => match params with
    | .notArray => .error .typeError
    | .scalar => .error .indexError
    | .rows l =>
      if grid.length ≠ l.length then .error .valueError
      else let s := sortRows argsort d grid l; buildEstimator d hull s.1 s.2 interp extrap

/-- `DiscretePDFComponentEstimator.__init__`, /repo/pyirf/interpolation/component_estimators.py:162-273. `pdf` are the templates and `nbins` the length of their last
axis. -/
def discreteInit {ρ β : Type*} (argsort : List ℝ → List ℕ) (delaunay : Grid → Except Err (List (FV ℝ) → Bool)) (g : GridArg) (edges : ArrArg ℝ) (pdf : ArrArg ρ) (nbins : ℕ)
    (interp : List ℝ → ClsArg ρ β) (extrap : Option (List ℝ → ClsArg ρ β)) : Except Err (Estimator β) :=
  match baseInit delaunay g with
  | .error e => .error e
  | .ok (d, grid, hull) => match pdf with
    | .notArray => .error .typeError
    | .scalar => .error .indexError
    | .rows l =>
      if grid.length ≠ l.length then .error .valueError
      else match edges with
        | .notArray => .error .typeError
        | .scalar => .error .indexError
        | .rows e =>
          if (nbins : ℤ) ≠ (e.length : ℤ) - 1 then .error .valueError
          else let s := sortRows argsort d grid l; buildEstimator d hull s.1 s.2 (interp e) (extrap.map (· e))

/-- The checks of the target in `BaseComponentEstimator.__call__`, /repo/pyirf/interpolation/component_estimators.py:128-141. -/
def checkTarget (d : ℕ) : TargetArg → Except Err (List (FV ℝ))
  | .notArray => .error .typeError
  | .scalar => .error .indexError
  | .oneD t => if t.length ≠ d then .error .valueError else .ok t
  | .twoD k rows => match rows with
    | [t] => if k ≠ d then .error .valueError else .ok t
    | _ => .error .valueError

/-- `_target_in_grid`, /repo/pyirf/interpolation/component_estimators.py:90-100. Grids without coordinates have no triangulation (AttributeError). -/
noncomputable def targetInGrid {β : Type*} (e : Estimator β) (t : List (FV ℝ)) : Except Err Bool :=
  if e.dim = 1 then
    match (e.grid.map coord).min?, (e.grid.map coord).max? with
    | some lo, some hi => .ok (FV.ge (t.headD .nan) (.fin lo) && FV.le (t.headD .nan) (.fin hi))
    | _, _ => .error .valueError
  else if e.dim = 0 then .error .attributeError
  else .ok (e.inHull t)

/-- The result of a call, and whether it warned about an extrapolation. -/
structure Outcome (β : Type*) where
  result : Except Err β
  warned : Bool

/-- `BaseComponentEstimator.__call__`, /repo/pyirf/interpolation/component_estimators.py:102-151. -/
noncomputable def Estimator.call {β : Type*} (e : Estimator β) (target : TargetArg) : Outcome β :=
  match checkTarget e.dim target with
  | .error err => ⟨.error err, false⟩
  | .ok t => match targetInGrid e t with
    | .error err => ⟨.error err, false⟩
    | .ok true => ⟨e.interpolator t, false⟩
    | .ok false => match e.extrapolator with
      | some x => ⟨x t, true⟩
      | none => ⟨.error .valueError, false⟩

/-! ## EffectiveAreaEstimator -/

/-- `np.log` of a finite number -/
noncomputable def flog (x : ℝ) : FV ℝ := if 0 < x then .fin (Real.log x) else if x = 0 then .ninf else .nan

/-- `np.exp` -/
noncomputable def fexp : FV ℝ → FV ℝ
  | .fin x => .fin (Real.exp x)
  | .nan => .nan
  | .ninf => .fin 0
  | .pinf => .pinf

/-- Replacement of small areas, /repo/pyirf/interpolation/component_estimators.py:437-439. -/
noncomputable def floorArea (amin a : ℝ) : ℝ := if a < amin then amin else a

/-- `EffectiveAreaEstimator.__init__`, /repo/pyirf/interpolation/component_estimators.py:379-449. Areas in m2, finite; `C` indexes the axes after the first. -/
noncomputable def effectiveAreaInit {C : Type*} (argsort : List ℝ → List ℕ) (delaunay : Grid → Except Err (List (FV ℝ) → Bool)) (g : GridArg) (areas : List (C → ℝ)) (amin : ℝ)
    (interp : ClsArg (C → FV ℝ) (C → FV ℝ)) (extrap : Option (ClsArg (C → FV ℝ) (C → FV ℝ))) : Except Err (Estimator (C → FV ℝ)) :=
  parametrizedInit argsort delaunay g (.rows (areas.map fun a c => flog (floorArea amin (a c)))) interp extrap

/-- The last step of `EffectiveAreaEstimator.__call__` for one cell, /repo/pyirf/interpolation/component_estimators.py:472-475. -/
noncomputable def areaFromLog (amin : ℝ) (x : FV ℝ) : FV ℝ := if FV.lt (fexp x) (.fin amin) then .fin 0 else fexp x

/-- `EffectiveAreaEstimator.__call__`, /repo/pyirf/interpolation/component_estimators.py:451-477. -/
noncomputable def effectiveAreaCall {C : Type*} (e : Estimator (C → FV ℝ)) (amin : ℝ) (target : TargetArg) : Outcome (C → FV ℝ) :=
  let o := e.call target
  ⟨match o.result with
    | .error err => .error err
    | .ok r => .ok fun c => areaFromLog amin (r c), o.warned⟩

/-- What the caller's array contains after `EffectiveAreaEstimator.__init__`, in the unit of the caller, /repo/pyirf/interpolation/component_estimators.py:430-439:
`to_value(u.m**2)` is a view of the caller's data if the unit has the scale 1 to m2 and a new array otherwise; the assignment writes into it. -/
noncomputable def callerAreasAfter {C : Type*} (scale : ℝ) (areas : List (C → ℝ)) (amin : ℝ) : List (C → ℝ) :=
  if scale = 1 then areas.map fun a c => floorArea amin (a c) else areas

/-! ## GridDataInterpolator -/

/-- `GridDataInterpolator`, /repo/pyirf/interpolation/griddata_interpolator.py:11-70: `griddata(grid, target)` gives the weights. The shape `(1, ...)` is that of the
rows. -/
noncomputable def gridDataInterpolator {C : Type*} (griddata : Grid → List (FV ℝ) → Option (List (ℕ × ℝ))) : ClsArg (C → FV ℝ) (C → FV ℝ) :=
  .cls fun grid rows => .ok fun t => .ok fun c =>
    match griddata grid t with
    | none => .nan
    | some l => fsum (l.map fun e => .fin e.2 * (rows.getD e.1 fun _ => .nan) c)

/-- scipy's `griddata` (default arguments) on a grid with one coordinate, as called in /repo/pyirf/interpolation/griddata_interpolator.py:66-68: linear between the
sorted points, NaN outside and for a target that is not finite. -/
noncomputable def griddataLine (grid : Grid) (t : List (FV ℝ)) : Option (List (ℕ × ℝ)) :=
  match t with
  | [.fin x] => if h : 2 ≤ grid.length then
      (griddata1D (N := grid.length - 2) (fun i => coord (grid.getD i.val [])) x).map fun l => l.map fun e => (e.1.val, e.2)
    else none
  | _ => none

/-! ## RadMaxEstimator -/

/-- The argument `fill_value`. -/
inductive FillArg
  | none | infer
  | value (v : ℝ)

/-- `fill_val`, /repo/pyirf/interpolation/component_estimators.py:543-548; the tables have `m` cells. The maximum of no number raises ValueError. -/
noncomputable def fillVal {m : ℕ} (rows : List (Fin m → ℝ)) : FillArg → Except Err (Option ℝ)
  | .none => .ok none
  | .infer => match (rows.flatMap List.ofFn).max? with
    | none => .error .valueError
    | some v => .ok (some v)
  | .value v => .ok (some v)

/-- `if self.fill_val`: none and zero count as false. -/
noncomputable def handlesFill : Option ℝ → Option ℝ
  | none => none
  | some v => if v = 0 then none else some v

/-- A RadMaxEstimator: the estimator, `params`, the fill value that is handled, and whether interpolator and extrapolator are nearest neighbor searchers. -/
structure RadMax (m : ℕ) where
  est : Estimator (Fin m → FV ℝ)
  params : List (Fin m → ℝ)
  fill : Option ℝ
  nnInterp : Bool
  nnExtrap : Bool

/-- `RadMaxEstimator.__init__`, /repo/pyirf/interpolation/component_estimators.py:483-559. (The triangulation of lines 558-559 is that of the base class.) -/
noncomputable def radMaxInit {m : ℕ} (argsort : List ℝ → List ℕ) (delaunay : Grid → Except Err (List (FV ℝ) → Bool)) (g : GridArg) (rows : List (Fin m → ℝ)) (fill : FillArg)
    (interp : ClsArg (Fin m → FV ℝ) (Fin m → FV ℝ)) (extrap : Option (ClsArg (Fin m → FV ℝ) (Fin m → FV ℝ))) (nnInterp nnExtrap : Bool) : Except Err (RadMax m) :=
  match parametrizedInit argsort delaunay g (.rows (rows.map fun r c => .fin (r c))) interp extrap with
  | .error e => .error e
  | .ok est => match fillVal rows fill with
    | .error e => .error e
    | .ok v =>
      if (handlesFill v).isSome ∧ 3 ≤ est.dim then .error .valueError
      else .ok ⟨est, rows, handlesFill v, nnInterp, nnExtrap⟩

/-- `np.clip(x, 0, None)` -/
noncomputable def clip0 (x : FV ℝ) : FV ℝ := if FV.lt x (.fin 0) then .fin 0 else x

/-- The last steps for one cell, /repo/pyirf/interpolation/component_estimators.py:664-668: flagged cells get the fill value, and nothing exceeds it. -/
noncomputable def applyFill (v : ℝ) (mask : Bool) (x : FV ℝ) : FV ℝ :=
  let y : FV ℝ := if mask then .fin v else x
  if FV.gt y (.fin v) then .fin v else y

/-- The two grid points around the target, /repo/pyirf/interpolation/component_estimators.py:611-619; `np.digitize` counts the grid points `<=` the target. -/
noncomputable def segmentInds (grid : List ℝ) (n : ℕ) (lo hi t : ℝ) : ℕ × ℕ :=
  if t < lo then (0, 1) else if hi < t then (n - 2, n - 1)
  else ((grid.filter fun x => decide (x ≤ t)).length - 1, (grid.filter fun x => decide (x ≤ t)).length)

/-- `RadMaxEstimator.__call__` in one dimension, /repo/pyirf/interpolation/component_estimators.py:561-670, for a finite target given in an array with one or two axes. -/
noncomputable def radMaxCall1D {m : ℕ} (r : RadMax m) (target : TargetArg) (t : ℝ) : Except Err (Fin m → FV ℝ) :=
  match (r.est.call target).result with
  | .error e => .error e
  | .ok full0 =>
    let full := fun c => clip0 (full0 c)
    match r.fill with
    | none => .ok full
    | some v => match (r.est.grid.map coord).min?, (r.est.grid.map coord).max? with
      | some lo, some hi =>
        if ((t < lo ∨ hi < t) ∧ r.nnExtrap = true) ∨ r.nnInterp = true then .ok full
        else
          let s := segmentInds (r.est.grid.map coord) r.params.length lo hi t
          match r.params[s.1]?, r.params[s.2]? with
          | some a, some b => .ok fun c => applyFill v (decide (v ≤ a c ∨ v ≤ b c)) (full c)
          | _, _ => .error .indexError
      | _, _ => .error .valueError

/-- The combination of the three nodes for one cell, /repo/pyirf/interpolation/component_estimators.py:636-668: the number of nodes with a fill value decides. -/
noncomputable def combine3 (v : ℝ) (a b c : ℝ) (full : FV ℝ) : FV ℝ :=
  let n := (if v ≤ a then 1 else 0) + (if v ≤ b then 1 else 0) + (if v ≤ c then 1 else 0)
  let mask := if n = 1 then false else if n = 2 then true else if n = 3 then true else if n = 0 then false else true
  applyFill v mask (if n = 1 then .fin (min (min a b) c) else full)

/-- Location of the target, /repo/pyirf/interpolation/component_estimators.py:627-632. `T` is the triangulation, `findSimplex` its `find_simplex` (none for -1). Outside,
`find_nearest_simplex` gets the target as it was given: for an array with two axes `np.dot` in `point_facet_angle` (/repo/pyirf/interpolation/utils.py:92) raises
ValueError for the shapes (1, 2) and (1, 2). -/
noncomputable def locateSimplex (argsort : List (FV ℝ × FV ℝ) → ℕ) (T : Triangulation) (findSimplex : Pt 0 → Option ℕ) (target : TargetArg) (t : Pt 0) : Except Err ℕ :=
  match findSimplex t with
  | some i => .ok i
  | none => match target with
    | .twoD _ _ => .error .valueError
    | _ => findNearestSimplex argsort T t

/-- `RadMaxEstimator.__call__` in two dimensions, /repo/pyirf/interpolation/component_estimators.py:561-670. -/
noncomputable def radMaxCall2D {m : ℕ} (r : RadMax m) (argsort : List (FV ℝ × FV ℝ) → ℕ) (T : Triangulation) (findSimplex : Pt 0 → Option ℕ) (target : TargetArg) (t : Pt 0) :
    Except Err (Fin m → FV ℝ) :=
  match (r.est.call target).result with
  | .error e => .error e
  | .ok full0 =>
    let full := fun c => clip0 (full0 c)
    match r.fill with
    | none => .ok full
    | some v =>
      if ((findSimplex t).isNone ∧ r.nnExtrap = true) ∨ r.nnInterp = true then .ok full
      else
        match locateSimplex argsort T findSimplex target t with
        | .error e => .error e
        | .ok i => match T.simplices[i]? with
          | none => .error .indexError
          | some s => match r.params[(s 0).val]?, r.params[(s 1).val]?, r.params[(s 2).val]? with
            | some a, some b, some c => .ok fun k => combine3 v (a k) (b k) (c k) (full k)
            | _, _, _ => .error .indexError

/-! ## Estimators of tables with an axis argument -/

/-- `EnergyDispersionEstimator(..., axis).__call__`, /repo/pyirf/interpolation/component_estimators.py:726-756, 812-814 and 857-864, and `PSFTableEstimator`, 814 and 857-864: swap the axis
to the end, estimate, and swap back. `est` is what construction and call of the base class compute from the array. -/
def estimateAlong {α : Type*} (est : ND α → Except Err (ND α)) (table : ND α) (axis : ℤ) : Except Err (ND α) :=
  match table.swapaxes axis (-1) with
  | .error e => .error e
  | .ok x => match est x with
    | .error e => .error e
    | .ok y => y.swapaxes (-1) axis

/-- A keyword argument of an interpolator class. -/
inductive Kwarg
  | normalization | quantileResolution | normOrd
  deriving DecidableEq

/-- The discrete PDF classes that can be passed as interpolator or extrapolator. -/
inductive PdfClass
  | quantile | momentMorph | nearestNeighbor | momentMorphNearestSimplex
  deriving DecidableEq

/-- The keyword arguments a class accepts besides grid, edges and PDF: /repo/pyirf/interpolation/quantile_interpolator.py:157-164, moment_morph_interpolator.py:266-268,
nearest_neighbor_searcher.py:107, nearest_simplex_extrapolator.py:133-135. -/
def PdfClass.accepts : PdfClass → Kwarg → Bool
  | .quantile, .normalization => true
  | .quantile, .quantileResolution => true
  | .momentMorph, .normalization => true
  | .nearestNeighbor, .normOrd => true
  | .momentMorphNearestSimplex, .normalization => true
  | _, _ => false

/-- Calling a class with keyword arguments: TypeError for an unexpected one. -/
def PdfClass.construct (c : PdfClass) (kwargs : List Kwarg) : Except Err Unit := if kwargs.all c.accepts then .ok () else .error .typeError

/-- `kwargs.setdefault(key, value)` -/
def setDefault (kwargs : List Kwarg) (k : Kwarg) : List Kwarg := if k ∈ kwargs then kwargs else kwargs ++ [k]

/-- `interpolator_kwargs` of `PSFTableEstimator.__init__` after the defaults, /repo/pyirf/interpolation/component_estimators.py:816-827 (none counts as empty). -/
def psfKwargs (kwargs : Option (List Kwarg)) : List Kwarg := setDefault (kwargs.getD []) .normalization

/-- Construction of interpolator and extrapolator in `PSFTableEstimator.__init__`, /repo/pyirf/interpolation/component_estimators.py:816-837 and 255-275. -/
def psfConstruct (interp : PdfClass) (ikwargs : Option (List Kwarg)) (extrap : Option PdfClass) (xkwargs : Option (List Kwarg)) : Except Err Unit :=
  match interp.construct (psfKwargs ikwargs) with
  | .error e => .error e
  | .ok _ => match extrap with
    | none => .ok ()
    | some x => x.construct (psfKwargs xkwargs)

/-- The caller's dictionary after `PSFTableEstimator.__init__`: `setdefault` works on the object that was passed. -/
def callerKwargsAfter (kwargs : Option (List Kwarg)) : Option (List Kwarg) := kwargs.map fun k => setDefault k .normalization

end Pyirf.Interpolation
