import Verif.Np.Real
import Verif.Np.Memory
import Verif.Interpolation.EstimatorModel

/-!
# Model: which arrays the component estimators share with their caller

/repo/pyirf/interpolation: component_estimators.py, base_interpolators.py, base_extrapolators.py, griddata_interpolator.py, nearest_neighbor_searcher.py,
nearest_simplex_extrapolator.py, moment_morph_interpolator.py, quantile_interpolator.py, seen as operations on array objects in memory. What the methods compute is a parameter here
(any function of the values of the arrays they read); what they are is the subject of the other models. The argument checks of the constructors are left out: all
statements are about estimators that could be built. `τ` is the type of targets.
-/
set_option linter.unusedSectionVars false

namespace Pyirf.Memory
open Pyirf Pyirf.Np Pyirf.Interpolation

/-- The elements of the arrays. -/
abbrev V := FV ℝ

/-! ## Interpolators and extrapolators -/

/-- How `interpolate` / `extrapolate` makes its result from the arrays the object has stored. -/
inductive Method (τ : Type)
  /-- a new array is computed: GridDataInterpolator (/repo/pyirf/interpolation/griddata_interpolator.py:66-70), the parametrized simplex extrapolators
  (/repo/pyirf/interpolation/nearest_simplex_extrapolator.py:54-124, visible_edges_extrapolator.py:176-207) and QuantileInterpolator (/repo/pyirf/interpolation/quantile_interpolator.py:236-254) -/
  | compute (f : List (ND V) → τ → Except Err (ND V))
  /-- moment morphing (/repo/pyirf/interpolation/moment_morph_interpolator.py:302-345 and 209-260, nearest_simplex_extrapolator.py:171-262): `self.binned_pdf[inds]` (the stored array number `k`) is a new
  array, `moment_morph_estimation` sets the elements of its nearly empty cells (`zero`) to `v`, and a new array is computed from the result -/
  | scratch (k : ℕ) (inds : List (ND V) → τ → Except Err (List ℕ)) (zero : ND V → List ℕ → Prop) (v : V) (f : List (ND V) → ND V → τ → Except Err (ND V))
  /-- nearest neighbor searchers return the view `self.values[index, :]` of the stored array number `k`, /repo/pyirf/interpolation/nearest_neighbor_searcher.py:83-92 -/
  | nearest (k : ℕ) (index : List (ND V) → τ → Except Err ℕ)

/-- An interpolator or extrapolator object: the arrays kept in its attributes and what it does with them. -/
structure Obj (τ : Type) where
  stored : List Ref
  method : Method τ

/-- A call of an interpolator or extrapolator object: the memory afterwards, and the array object returned. -/
noncomputable def Obj.call {τ : Type} (o : Obj τ) (m : Mem V) (t : τ) : Mem V × Except Err Ref :=
  match o.method with
  | .compute f => match f (o.stored.map m.read) t with
    | .error e => (m, .error e)
    | .ok a => ((m.alloc a).1, .ok (m.alloc a).2)
  | .scratch k inds zero v f => match inds (o.stored.map m.read) t with
    | .error e => (m, .error e)
    | .ok l => match o.stored[k]? with
      | none => (m, .error .attributeError)
      | some r =>
        let c := m.alloc ((m.read r).takeRows l)
        let m2 := c.1.writeWhere c.2 (zero (c.1.read c.2)) v
        match f (o.stored.map m2.read) (m2.read c.2) t with
        | .error e => (m2, .error e)
        | .ok a => ((m2.alloc a).1, .ok (m2.alloc a).2)
  | .nearest k index => match index (o.stored.map m.read) t with
    | .error e => (m, .error e)
    | .ok i => match o.stored[k]? with
      | none => (m, .error .attributeError)
      | some r => (m, r.row i)

/-! ## Estimators -/

/-- A component estimator object, /repo/pyirf/interpolation/component_estimators.py:38-86: `grid_points`, the test for targets inside the grid, interpolator and extrapolator. (For two and more
dimensions the test is that of the triangulation made at construction.) -/
structure Est (τ : Type) where
  grid : Ref
  inGrid : ND V → τ → Except Err Bool
  interp : Obj τ
  extrap : Option (Obj τ)

/-- `BaseComponentEstimator.__call__`, /repo/pyirf/interpolation/component_estimators.py:102-151; `inGrid` includes the checks of the target. -/
noncomputable def Est.call {τ : Type} (e : Est τ) (m : Mem V) (t : τ) : Mem V × Except Err Ref :=
  match e.inGrid (m.read e.grid) t with
  | .error err => (m, .error err)
  | .ok true => e.interp.call m t
  | .ok false => match e.extrap with
    | some x => x.call m t
    | none => (m, .error .valueError)

/-- The sorting of 1D input, /repo/pyirf/interpolation/component_estimators.py:236-241 and 345-350: `grid_points[sorting_inds]` and `params[sorting_inds]` are new arrays. With more dimensions the
caller's array objects are used. -/
def sortInput (argsort : ND V → List ℕ) (oneDim : Bool) (m : Mem V) (grid data : Ref) : Mem V × Ref × Ref :=
  if oneDim then
    let g := m.alloc ((m.read grid).takeRows (argsort (m.read grid)))
    let d := g.1.alloc ((m.read data).takeRows (argsort (m.read grid)))
    (d.1, g.2, d.2)
  else (m, grid, data)

/-- Classes for parametrized quantities: the arrays are stored as they are, /repo/pyirf/interpolation/base_interpolators.py:90-95, base_extrapolators.py:66-71, nearest_neighbor_searcher.py:163. -/
inductive ParamCls (τ : Type)
  | compute (f : ND V → ND V → τ → Except Err (ND V))
  | nearest (index : ND V → τ → Except Err ℕ)

/-- Construction of an object of the class. -/
def ParamCls.new {τ : Type} : ParamCls τ → Ref → Ref → Obj τ
  | .compute f, grid, params => ⟨[grid, params], .compute fun l t => match l with | [g, p] => f g p t | _ => .error .attributeError⟩
  | .nearest index, grid, params => ⟨[grid, params], .nearest 1 fun l t => match l with | g :: _ => index g t | _ => .error .attributeError⟩

/-- `ParametrizedComponentEstimator.__init__`, /repo/pyirf/interpolation/component_estimators.py:333-376. -/
def parametrizedNew {τ : Type} (argsort : ND V → List ℕ) (oneDim : Bool) (inGrid : ND V → τ → Except Err Bool) (interp : ParamCls τ) (extrap : Option (ParamCls τ)) (m : Mem V)
    (grid params : Ref) : Mem V × Est τ :=
  let s := sortInput argsort oneDim m grid params
  (s.1, ⟨s.2.1, inGrid, interp.new s.2.1 s.2.2, extrap.map fun x => x.new s.2.1 s.2.2⟩)

/-! ## EffectiveAreaEstimator -/

/-- `effective_area.to_value(u.m**2)`, /repo/pyirf/interpolation/component_estimators.py:431: the same memory if the unit has the scale 1 to m2, else a new array. -/
noncomputable def toSquareMetres (scale : ℝ) (m : Mem V) (areas : Ref) : Mem V × Ref :=
  if scale = 1 then (m, areas) else m.alloc ⟨areas.shape, fun idx => .fin scale * (m.read areas).get idx⟩

/-- `a[a < min] = min` for one element, /repo/pyirf/interpolation/component_estimators.py:437-439. -/
noncomputable def floorV (amin : ℝ) (x : V) : V := if FV.lt x (.fin amin) then .fin amin else x

/-- `np.log` -/
noncomputable def logV : V → V := FV.log

/-- `EffectiveAreaEstimator.__init__`, /repo/pyirf/interpolation/component_estimators.py:430-449. -/
noncomputable def effectiveAreaNew {τ : Type} (argsort : ND V → List ℕ) (oneDim : Bool) (inGrid : ND V → τ → Except Err Bool) (interp : ParamCls τ) (extrap : Option (ParamCls τ)) (scale amin : ℝ)
    (m : Mem V) (grid areas : Ref) : Mem V × Est τ :=
  let c := toSquareMetres scale m areas
  let m2 := c.1.modify c.2 (floorV amin)
  let l := m2.alloc ⟨areas.shape, fun idx => logV ((m2.read c.2).get idx)⟩
  parametrizedNew argsort oneDim inGrid interp extrap l.1 grid l.2

/-- `EffectiveAreaEstimator.__call__`, /repo/pyirf/interpolation/component_estimators.py:469-477: `np.exp` gives a new array. -/
noncomputable def effectiveAreaCallM {τ : Type} (e : Est τ) (amin : ℝ) (m : Mem V) (t : τ) : Mem V × Except Err Ref :=
  match e.call m t with
  | (m', .error err) => (m', .error err)
  | (m', .ok r) =>
    let a := m'.alloc ⟨r.shape, fun idx => areaFromLog amin ((m'.read r).get idx)⟩
    (a.1, .ok a.2)

/-! ## RadMaxEstimator -/

/-- A RadMaxEstimator object, /repo/pyirf/interpolation/component_estimators.py:541-559: `params` is the caller's `rad_max`. `nnAt` tells for a target whether the estimate comes from, or
is exempt because of, a nearest neighbor searcher (lines 590-607); `fillStep` is the handling of fill values (lines 609-668): from `params`, the clipped estimate and the target to the
final values. -/
structure RadMaxM (τ : Type) where
  est : Est τ
  params : Ref
  fill : Bool
  nnAt : ND V → τ → Bool
  fillStep : ND V → ND V → ND V → τ → Except Err (ND V)

/-- The handling of fill values on one-dimensional grids, /repo/pyirf/interpolation/component_estimators.py:609-625 and 664-668: the cells in which one of the two rows `seg` of `params` has at least the fill value
get the fill value, and nothing exceeds it. The estimate has the shape (1, ...). -/
noncomputable def fillStep1D {τ : Type} (v : ℝ) (seg : ND V → τ → ℕ × ℕ) (g p a : ND V) (t : τ) : Except Err (ND V) :=
  if (seg g t).1 < p.shape.headD 0 ∧ (seg g t).2 < p.shape.headD 0 then
    .ok ⟨a.shape, fun idx => applyFill v (FV.ge (p.get ((seg g t).1 :: idx.tail)) (.fin v) || FV.ge (p.get ((seg g t).2 :: idx.tail)) (.fin v)) (a.get idx)⟩
  else .error .indexError

/-- `RadMaxEstimator.__init__`, /repo/pyirf/interpolation/component_estimators.py:532-559. The sorted copies go to the inter- and extrapolator only. -/
def radMaxNew {τ : Type} (argsort : ND V → List ℕ) (oneDim : Bool) (inGrid : ND V → τ → Except Err Bool) (interp : ParamCls τ) (extrap : Option (ParamCls τ)) (fill : Bool)
    (nnAt : ND V → τ → Bool) (fillStep : ND V → ND V → ND V → τ → Except Err (ND V)) (m : Mem V) (grid radMax : Ref) : Mem V × RadMaxM τ :=
  let s := parametrizedNew argsort oneDim inGrid interp extrap m grid radMax
  (s.1, ⟨s.2, radMax, fill, nnAt, fillStep⟩)

/-- `RadMaxEstimator.__call__`, /repo/pyirf/interpolation/component_estimators.py:578-670: `np.clip(..., out=full_estimation)` writes into the array the inter- or extrapolator has returned. Where fill values are
handled, that array is a new one (a nearest neighbor estimate is returned before), so the further writes are seen by nobody else; their result is given as a new array here. -/
noncomputable def RadMaxM.call {τ : Type} (e : RadMaxM τ) (m : Mem V) (t : τ) : Mem V × Except Err Ref :=
  match e.est.call m t with
  | (m', .error err) => (m', .error err)
  | (m', .ok r) =>
    let m2 := m'.modify r clip0
    if e.fill = false ∨ e.nnAt (m2.read e.est.grid) t = true then (m2, .ok r)
    else match e.fillStep (m2.read e.est.grid) (m2.read e.params) (m2.read r) t with
      | .error err => (m2, .error err)
      | .ok a => ((m2.alloc a).1, .ok (m2.alloc a).2)

/-! ## Estimators of discrete PDFs -/

/-- Classes for discrete PDFs. -/
inductive PdfCls (τ : Type)
  /-- `QuantileInterpolator.__init__`, /repo/pyirf/interpolation/quantile_interpolator.py:200-230: extended edges and quantile functions are new arrays, and only they and the grid are used later. -/
  | quantile (extend : ND V → ND V) (ppfs : ND V → ND V → ND V) (f : ND V → ND V → ND V → τ → Except Err (ND V))
  /-- `MomentMorphInterpolator` and `MomentMorphNearestSimplexExtrapolator`: edges and PDFs are stored as they are, /repo/pyirf/interpolation/base_interpolators.py:131-134, base_extrapolators.py:106-109 -/
  | momentMorph (inds : ND V → τ → Except Err (List ℕ)) (zero : ND V → List ℕ → Prop) (v : V) (f : ND V → ND V → ND V → τ → Except Err (ND V))
  /-- `DiscretePDFNearestNeighborSearcher`, /repo/pyirf/interpolation/nearest_neighbor_searcher.py:131 -/
  | nearest (index : ND V → τ → Except Err ℕ)

/-- Construction of an object of the class from grid, edges and PDFs. -/
def PdfCls.new {τ : Type} (c : PdfCls τ) (m : Mem V) (grid edges pdf : Ref) : Mem V × Obj τ :=
  match c with
  | .quantile extend ppfs f =>
    let e := m.alloc (extend (m.read edges))
    let p := e.1.alloc (ppfs (m.read edges) (m.read pdf))
    (p.1, ⟨[grid, e.2, p.2], .compute fun l t => match l with | [g, e, p] => f g e p t | _ => .error .attributeError⟩)
  | .momentMorph inds zero v f =>
    (m, ⟨[grid, edges, pdf], .scratch 2 (fun l t => match l with | g :: _ => inds g t | _ => .error .attributeError) zero v
      fun l c t => match l with | [g, e, _] => f g e c t | _ => .error .attributeError⟩)
  | .nearest index => (m, ⟨[grid, pdf], .nearest 1 fun l t => match l with | g :: _ => index g t | _ => .error .attributeError⟩)

/-- `DiscretePDFComponentEstimator.__init__`, /repo/pyirf/interpolation/component_estimators.py:215-275. -/
def pdfNew {τ : Type} (argsort : ND V → List ℕ) (oneDim : Bool) (inGrid : ND V → τ → Except Err Bool) (interp : PdfCls τ) (extrap : Option (PdfCls τ)) (m : Mem V)
    (grid edges pdf : Ref) : Mem V × Est τ :=
  let s := sortInput argsort oneDim m grid pdf
  let i := interp.new s.1 s.2.1 edges s.2.2
  match extrap with
  | none => (i.1, ⟨s.2.1, inGrid, i.2, none⟩)
  | some x =>
    let y := x.new i.1 s.2.1 edges s.2.2
    (y.1, ⟨s.2.1, inGrid, i.2, some y.2⟩)

/-- `EnergyDispersionEstimator.__init__`, /repo/pyirf/interpolation/component_estimators.py:724-734: the swapped array is a view. -/
def edispNew {τ : Type} (argsort : ND V → List ℕ) (oneDim : Bool) (inGrid : ND V → τ → Except Err Bool) (interp : PdfCls τ) (extrap : Option (PdfCls τ)) (axis : ℤ) (m : Mem V)
    (grid edges pdf : Ref) : Except Err (Mem V × Est τ) :=
  match pdf.swapaxes axis (-1) with
  | .error e => .error e
  | .ok p => .ok (pdfNew argsort oneDim inGrid interp extrap m grid edges p)

/-- `EnergyDispersionEstimator.__call__`, /repo/pyirf/interpolation/component_estimators.py:756: a view of the result. -/
noncomputable def edispCall {τ : Type} (e : Est τ) (axis : ℤ) (m : Mem V) (t : τ) : Mem V × Except Err Ref :=
  match e.call m t with
  | (m', .error err) => (m', .error err)
  | (m', .ok r) => (m', r.swapaxes (-1) axis)

/-! ## Histories -/

/-- The caller's side: the memory and the array objects the caller has. -/
structure State where
  mem : Mem V
  handles : List Ref

/-- What a caller can do after the construction: write into an element of one of the arrays, or call the estimator, whose result is added to the arrays. -/
inductive Step (τ : Type)
  | write (k : ℕ) (idx : List ℕ) (v : V)
  | call (t : τ)

/-- One step; `call` is the call operator of an estimator. -/
noncomputable def step {τ : Type} (call : Mem V → τ → Mem V × Except Err Ref) (s : State) : Step τ → State
  | .write k idx v => match s.handles[k]? with
    | none => s
    | some r => ⟨s.mem.write r idx v, s.handles⟩
  | .call t => match call s.mem t with
    | (m, .ok r) => ⟨m, s.handles ++ [r]⟩
    | (m, .error _) => ⟨m, s.handles⟩

/-- A history. -/
noncomputable def run {τ : Type} (call : Mem V → τ → Mem V × Except Err Ref) (s : State) (prog : List (Step τ)) : State := prog.foldl (step call) s

/-- The values (or the exception) a call gives in the present state of the memory. -/
noncomputable def value {τ : Type} (call : Mem V → τ → Mem V × Except Err Ref) (m : Mem V) (t : τ) : Except Err (ND V) :=
  match call m t with
  | (m', .ok r) => .ok (m'.read r)
  | (_, .error e) => .error e

end Pyirf.Memory
