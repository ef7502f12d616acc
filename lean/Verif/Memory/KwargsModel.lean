import Verif.Interpolation.EstimatorModel
import Verif.Interpolation.MorphModel

/-!
# Model: keyword dictionaries shared between estimators

The caller's `interpolator_kwargs` and `extrapolator_kwargs` are dictionary objects. A history is a list of steps of the caller: writing or deleting an entry of a dictionary, and constructing estimators of
discrete PDFs with references to dictionaries (/repo/pyirf/interpolation/component_estimators.py).
-/
set_option linter.unusedSectionVars false

namespace Pyirf.Kwargs
open Pyirf Pyirf.Interpolation

/-- A value in a dictionary of keyword arguments. -/
inductive KVal
  | norm (n : Normalization)
  | number (x : ℝ)

/-- A dictionary of keyword arguments: the value of every key that is there. (Other keys than the three are refused by every class and are not modelled.) -/
abbrev KDict := Kwarg → Option KVal

/-- The dictionary objects the caller has, by reference. -/
abbrev Dicts := ℕ → KDict

/-- `d[key] = value` (`some`) and `d.pop(key, None)` (`none`) -/
def Dicts.set (ds : Dicts) (d : ℕ) (k : Kwarg) (v : Option KVal) : Dicts := fun d' k' => if d' = d ∧ k' = k then v else ds d' k'

/-- `d.setdefault("normalization", PDFNormalization.CONE_SOLID_ANGLE)`, /repo/pyirf/interpolation/component_estimators.py:822-827 -/
def KDict.withCone (d : KDict) : KDict := fun k => match k, d k with
  | .normalization, none => some (.norm .coneSolidAngle)
  | _, v => v

/-- The dictionary that was passed: `None` counts as a new empty one, /repo/pyirf/interpolation/component_estimators.py:249-253, 816-820. -/
def Dicts.deref (ds : Dicts) : Option ℕ → KDict
  | none => fun _ => none
  | some d => ds d

/-- `setdefault` on the object that was passed (on a new dictionary, which nobody else has, if none was) -/
def Dicts.setCone (ds : Dicts) : Option ℕ → Dicts
  | none => ds
  | some d => fun d' => if d' = d then (ds d).withCone else ds d'

/-- The defaults of the keyword arguments: /repo/pyirf/interpolation/quantile_interpolator.py:157-164, moment_morph_interpolator.py:266-268, nearest_neighbor_searcher.py:107, nearest_simplex_extrapolator.py:133-135. -/
noncomputable def kwargDefault : Kwarg → KVal
  | .normalization => .norm .area
  | .quantileResolution => .number (1 / 1000)
  | .normOrd => .number 2

/-- An inter- or extrapolator object: its class and what it has been given for the keyword arguments it takes. -/
structure PdfObject where
  cls : PdfClass
  value : Kwarg → Option KVal

/-- `cls(grid_points, bin_edges, binned_pdf, **kwargs)`: TypeError for a keyword the class does not take (/repo/pyirf/interpolation/component_estimators.py:260-262, 271-273). The values are bound at the call. -/
noncomputable def newObject (cls : PdfClass) (kwargs : KDict) : Except Err PdfObject :=
  if (∀ k ∈ [Kwarg.normalization, .quantileResolution, .normOrd], (kwargs k).isSome = true → cls.accepts k = true) then
    .ok ⟨cls, fun k => if cls.accepts k then some ((kwargs k).getD (kwargDefault k)) else none⟩
  else .error .typeError

/-- Arguments of the constructors. `early`: checks before the keyword dictionaries are touched (the unit of the PSF and `np.swapaxes`); `late`: the checks of the grid and the histograms
(/repo/pyirf/interpolation/component_estimators.py:216-240). -/
structure PdfArgs where
  early : Except Err Unit
  late : Except Err Unit
  interp : PdfClass
  ikwargs : Option ℕ
  extrap : Option PdfClass
  xkwargs : Option ℕ

/-- Is it a subclass of DiscretePDFInterpolator? (nearest_neighbor_searcher.py:135, moment_morph_interpolator.py:263, quantile_interpolator.py:154) -/
def isInterpolator : PdfClass → Bool
  | .momentMorphNearestSimplex => false
  | _ => true

/-- Is it a subclass of DiscretePDFExtrapolator? (nearest_neighbor_searcher.py:136, nearest_simplex_extrapolator.py:130) -/
def isExtrapolator : PdfClass → Bool
  | .momentMorphNearestSimplex => true
  | .nearestNeighbor => true
  | _ => false

/-- An estimator: its interpolator and its extrapolator. -/
structure PdfEstimator where
  interpolator : PdfObject
  extrapolator : Option PdfObject

/-- `DiscretePDFComponentEstimator.__init__`, /repo/pyirf/interpolation/component_estimators.py:216-275, with the contents of the two dictionaries. It does not write to them. -/
noncomputable def discreteNew (a : PdfArgs) (ikwargs xkwargs : KDict) : Except Err PdfEstimator :=
  match a.late with
  | .error e => .error e
  | .ok _ =>
    if isInterpolator a.interp = false then .error .typeError
    else match newObject a.interp ikwargs with
      | .error e => .error e
      | .ok i => match a.extrap with
        | none => .ok ⟨i, none⟩
        | some x =>
          if isExtrapolator x = false then .error .typeError
          else match newObject x xkwargs with
            | .error e => .error e
            | .ok o => .ok ⟨i, some o⟩

/-- `EnergyDispersionEstimator.__init__`, /repo/pyirf/interpolation/component_estimators.py:723-737: the dictionaries afterwards and the estimator. -/
noncomputable def edispNew (ds : Dicts) (a : PdfArgs) : Dicts × Except Err PdfEstimator :=
  match a.early with
  | .error e => (ds, .error e)
  | .ok _ => (ds, discreteNew a (ds.deref a.ikwargs) (ds.deref a.xkwargs))

/-- `PSFTableEstimator.__init__`, /repo/pyirf/interpolation/component_estimators.py:812-837. A dictionary that was not passed is made here and gets the default as well; if one object is passed twice the second
`setdefault` finds the entry. -/
noncomputable def psfNew (ds : Dicts) (a : PdfArgs) : Dicts × Except Err PdfEstimator :=
  match a.early with
  | .error e => (ds, .error e)
  | .ok _ =>
    let ds1 := (ds.setCone a.ikwargs).setCone a.xkwargs
    (ds1, discreteNew a (ds1.deref a.ikwargs).withCone (ds1.deref a.xkwargs).withCone)

/-- A step of the caller. -/
inductive KStep
  | write (d : ℕ) (k : Kwarg) (v : Option KVal)
  | psf (a : PdfArgs)
  | edisp (a : PdfArgs)

/-- One step: the dictionaries afterwards. -/
noncomputable def KStep.run (ds : Dicts) : KStep → Dicts
  | .write d k v => ds.set d k v
  | .psf a => (psfNew ds a).1
  | .edisp a => (edispNew ds a).1

/-- The dictionaries after a history of steps. -/
noncomputable def runSteps (ds : Dicts) (steps : List KStep) : Dicts := steps.foldl KStep.run ds

end Pyirf.Kwargs
