import Verif.Interpolation.EstimatorModel
import Verif.Interpolation.QuantileMore

/-!
# C60, C61: component estimators
-/
set_option linter.unusedSectionVars false
set_option linter.unusedSimpArgs false

namespace Pyirf.Interpolation
open Pyirf Pyirf.Np

/-! ## C60: construction -/

/-- An acceptable grid: one axis (a one-dimensional grid) or two axes, with more points than dimensions. -/
def GoodGrid (g : GridArg) (d : ℕ) (pts : Grid) : Prop :=
  d < pts.length ∧ ((∃ xs, g = .oneD xs ∧ d = 1 ∧ pts = xs.map fun x => [x]) ∨ g = .twoD d pts)

/-- An array with too few points for its dimension. -/
def TooFewPoints (g : GridArg) : Prop := (∃ xs, g = .oneD xs ∧ xs.length ≤ 1) ∨ ∃ d pts, g = .twoD d pts ∧ pts.length ≤ d

/-- No array of numbers. -/
def NotNumeric (g : GridArg) : Prop := g = .notArray ∨ g = .objectDtype ∨ g = .notFloat

/-- The triangulation succeeds if it is needed; `hull` tells which targets are inside. -/
def Triangulated (delaunay : Grid → Except Err (List (FV ℝ) → Bool)) (d : ℕ) (pts : Grid) (hull : List (FV ℝ) → Bool) : Prop :=
  if 1 < d then delaunay pts = .ok hull else hull = fun _ => false

theorem checkGrid_oneD (xs : List ℝ) : checkGrid (.oneD xs) = if xs.length < 1 + 1 then .error .valueError else .ok (1, xs.map fun x => [x]) := rfl

theorem checkTarget_oneD (d : ℕ) (t : List (FV ℝ)) : checkTarget d (.oneD t) = if t.length ≠ d then .error .valueError else .ok t := rfl

theorem checkTarget_row (d k : ℕ) (t : List (FV ℝ)) : checkTarget d (.twoD k [t]) = if k ≠ d then .error .valueError else .ok t := rfl

theorem checkGrid_twoD (d : ℕ) (pts : Grid) : checkGrid (.twoD d pts) = if pts.length < d + 1 then .error .valueError else .ok (d, pts) := rfl

theorem baseInit_ok {delaunay : Grid → Except Err (List (FV ℝ) → Bool)} {g : GridArg} {d : ℕ} {pts : Grid} {hull : List (FV ℝ) → Bool} :
    baseInit delaunay g = .ok (d, pts, hull) ↔ GoodGrid g d pts ∧ Triangulated delaunay d pts hull := by
  have key : ∀ (d' : ℕ) (pts' : Grid), (if 1 < d' then (match delaunay pts' with | .error e => (.error e : Except Err (ℕ × Grid × (List (FV ℝ) → Bool))) | .ok h => .ok (d', pts', h))
      else .ok (d', pts', fun _ => false)) = .ok (d, pts, hull) ↔ (d' = d ∧ pts' = pts ∧ Triangulated delaunay d pts hull) := by
    intro d' pts'
    unfold Triangulated
    by_cases h : 1 < d'
    · rw [if_pos h]
      cases hd : delaunay pts' with
      | error e =>
        simp only [reduceCtorEq, false_iff]
        rintro ⟨rfl, rfl, ht⟩
        rw [if_pos h, hd] at ht
        cases ht
      | ok hh =>
        simp only [Except.ok.injEq, Prod.mk.injEq]
        constructor
        · rintro ⟨rfl, rfl, rfl⟩; exact ⟨rfl, rfl, by rw [if_pos h, hd]⟩
        · rintro ⟨rfl, rfl, ht⟩; rw [if_pos h, hd] at ht; exact ⟨rfl, rfl, Except.ok.inj ht⟩
    · rw [if_neg h]
      simp only [Except.ok.injEq, Prod.mk.injEq]
      constructor
      · rintro ⟨rfl, rfl, rfl⟩; exact ⟨rfl, rfl, by rw [if_neg h]⟩
      · rintro ⟨rfl, rfl, ht⟩; rw [if_neg h] at ht; exact ⟨rfl, rfl, ht.symm⟩
  unfold baseInit GoodGrid
  cases g with
  | notArray => simp [checkGrid]
  | objectDtype => simp [checkGrid]
  | notFloat => simp [checkGrid]
  | scalar => simp [checkGrid]
  | oneD xs =>
    rw [checkGrid_oneD]
    by_cases h : xs.length < 1 + 1
    · rw [if_pos h]
      simp only [reduceCtorEq, false_iff]
      rintro ⟨⟨h1, h2⟩, _⟩
      rcases h2 with ⟨ys, hy, rfl, rfl⟩ | h2
      · cases hy; simp at h1; omega
      · cases h2
    · rw [if_neg h]
      refine (key 1 (xs.map fun x => [x])).trans ?_
      constructor
      · rintro ⟨rfl, rfl, ht⟩
        exact ⟨⟨by simp; omega, Or.inl ⟨xs, rfl, rfl, rfl⟩⟩, ht⟩
      · rintro ⟨⟨_, h2⟩, ht⟩
        rcases h2 with ⟨ys, hy, rfl, rfl⟩ | h2
        · cases hy; exact ⟨rfl, rfl, ht⟩
        · cases h2
  | twoD k ps =>
    rw [checkGrid_twoD]
    by_cases h : ps.length < k + 1
    · rw [if_pos h]
      simp only [reduceCtorEq, false_iff]
      rintro ⟨⟨h1, h2⟩, _⟩
      rcases h2 with ⟨ys, hy, _⟩ | h2
      · cases hy
      · cases h2; omega
    · rw [if_neg h]
      refine (key k ps).trans ?_
      constructor
      · rintro ⟨rfl, rfl, ht⟩
        exact ⟨⟨by omega, Or.inr rfl⟩, ht⟩
      · rintro ⟨⟨_, h2⟩, ht⟩
        rcases h2 with ⟨ys, hy, _⟩ | h2
        · cases hy
        · cases h2; exact ⟨rfl, rfl, ht⟩

theorem baseInit_errors (delaunay : Grid → Except Err (List (FV ℝ) → Bool)) (g : GridArg) :
    (NotNumeric g → baseInit delaunay g = .error .typeError) ∧ (TooFewPoints g → baseInit delaunay g = .error .valueError) := by
  refine ⟨?_, ?_⟩
  · rintro (rfl | rfl | rfl) <;> rfl
  · rintro (⟨xs, rfl, h⟩ | ⟨d, pts, rfl, h⟩)
    · unfold baseInit; rw [checkGrid_oneD, if_pos (by omega)]
    · unfold baseInit; rw [checkGrid_twoD, if_pos (by omega)]

/-- The templates as passed to interpolator and extrapolator: in one dimension ordered by `argsort` of the grid. -/
def OrderedGrid {ρ : Type*} (argsort : List ℝ → List ℕ) (d : ℕ) (pts : Grid) (rows : List ρ) (pts' : Grid) (rows' : List ρ) : Prop := sortRows argsort d pts rows = (pts', rows')

/-- The interpolator and, if there is one, the extrapolator are constructed from these points and templates. -/
def Built {ρ β : Type*} (pts : Grid) (rows : List ρ) (interp : ClsArg ρ β) (extrap : Option (ClsArg ρ β)) (i : Callable β) (x : Option (Callable β)) : Prop :=
  (∃ mk, interp = .cls mk ∧ mk pts rows = .ok i) ∧ ((extrap = none ∧ x = none) ∨ ∃ mk y, extrap = some (.cls mk) ∧ mk pts rows = .ok y ∧ x = some y)

theorem buildEstimator_ok {ρ β : Type*} {d : ℕ} {hull : List (FV ℝ) → Bool} {grid : Grid} {rows : List ρ} {interp : ClsArg ρ β} {extrap : Option (ClsArg ρ β)} {e : Estimator β} :
    buildEstimator d hull grid rows interp extrap = .ok e ↔ ∃ i x, Built grid rows interp extrap i x ∧ e = ⟨d, grid, hull, i, x⟩ := by
  unfold buildEstimator Built
  cases interp with
  | notSubclass => simp
  | cls mk =>
    simp only
    cases hm : mk grid rows with
    | error er => simp [hm]
    | ok i =>
      simp only
      rcases extrap with _ | (_ | mk')
      · rw [Except.ok.injEq]
        constructor
        · rintro rfl; exact ⟨i, none, ⟨⟨mk, rfl, hm⟩, Or.inl ⟨rfl, rfl⟩⟩, rfl⟩
        · rintro ⟨i', x', ⟨⟨mk'', h1, h2⟩, h3⟩, rfl⟩
          cases h1
          rw [hm] at h2
          cases h2
          rcases h3 with ⟨_, rfl⟩ | ⟨_, _, h, _⟩
          · rfl
          · cases h
      · simp
      · simp only
        cases hm' : mk' grid rows with
        | error er =>
          simp only [reduceCtorEq, false_iff]
          rintro ⟨i', x', ⟨_, h3⟩, _⟩
          rcases h3 with ⟨h, _⟩ | ⟨_, _, h, hy, _⟩
          · cases h
          · cases h; rw [hm'] at hy; cases hy
        | ok x =>
          simp only [Except.ok.injEq]
          constructor
          · rintro rfl; exact ⟨i, some x, ⟨⟨mk, rfl, hm⟩, Or.inr ⟨mk', x, rfl, hm', rfl⟩⟩, rfl⟩
          · rintro ⟨i', x', ⟨⟨mk'', h1, h2⟩, h3⟩, rfl⟩
            cases h1
            rw [hm] at h2
            cases h2
            rcases h3 with ⟨h, _⟩ | ⟨_, y, h, hy, rfl⟩
            · cases h
            · cases h; rw [hm'] at hy; cases hy; rfl

/-- **C60** Construction of a ParametrizedComponentEstimator succeeds exactly if the grid is a numeric array with more points than dimensions (that can be
triangulated), the parameters are an array with one row per grid point, and interpolator and extrapolator are proper classes that can be constructed. The estimator then
consists of these. -/
theorem C60_parametrized {ρ β : Type*} (argsort : List ℝ → List ℕ) (delaunay : Grid → Except Err (List (FV ℝ) → Bool)) (g : GridArg) (params : ArrArg ρ) (interp : ClsArg ρ β)
    (extrap : Option (ClsArg ρ β)) (e : Estimator β) :
    parametrizedInit argsort delaunay g params interp extrap = .ok e ↔ ∃ d pts hull rows pts' rows' i x, GoodGrid g d pts ∧ Triangulated delaunay d pts hull ∧
      params = .rows rows ∧ rows.length = pts.length ∧ OrderedGrid argsort d pts rows pts' rows' ∧ Built pts' rows' interp extrap i x ∧ e = ⟨d, pts', hull, i, x⟩ := by
  unfold parametrizedInit
  constructor
  · intro h
    cases hb : baseInit delaunay g with
    | error er => rw [hb] at h; cases h
    | ok b =>
      obtain ⟨d, pts, hull⟩ := b
      rw [hb] at h
      simp only at h
      obtain ⟨h1, h2⟩ := baseInit_ok.mp hb
      cases params with
      | notArray => cases h
      | scalar => cases h
      | rows l =>
        simp only at h
        split at h
        · cases h
        · rename_i hl
          obtain ⟨i, x, hbu, rfl⟩ := buildEstimator_ok.mp h
          exact ⟨d, pts, hull, l, _, _, i, x, h1, h2, rfl, (not_not.mp hl).symm, rfl, hbu, rfl⟩
  · rintro ⟨d, pts, hull, rows, pts', rows', i, x, h1, h2, rfl, hl, ho, hbu, rfl⟩
    rw [baseInit_ok.mpr ⟨h1, h2⟩]
    simp only
    rw [if_neg (by rw [hl]; simp)]
    have ho' : sortRows argsort d pts rows = (pts', rows') := ho
    rw [ho']
    exact buildEstimator_ok.mpr ⟨i, x, hbu, rfl⟩

/-- **C60** The exception of the first requirement that is not met, in the documented order. -/
theorem C60_parametrized_errors {ρ β : Type*} (argsort : List ℝ → List ℕ) (delaunay : Grid → Except Err (List (FV ℝ) → Bool)) (g : GridArg) (params : ArrArg ρ) (interp : ClsArg ρ β)
    (extrap : Option (ClsArg ρ β)) :
    (NotNumeric g → parametrizedInit argsort delaunay g params interp extrap = .error .typeError) ∧
    (TooFewPoints g → parametrizedInit argsort delaunay g params interp extrap = .error .valueError) ∧
    ∀ d pts hull, GoodGrid g d pts → Triangulated delaunay d pts hull →
      (params = .notArray → parametrizedInit argsort delaunay g params interp extrap = .error .typeError) ∧
      ∀ rows, params = .rows rows →
        (rows.length ≠ pts.length → parametrizedInit argsort delaunay g params interp extrap = .error .valueError) ∧
        (rows.length = pts.length → interp = .notSubclass → parametrizedInit argsort delaunay g params interp extrap = .error .typeError) ∧
        (rows.length = pts.length → ∀ pts' rows' mk i, OrderedGrid argsort d pts rows pts' rows' → interp = .cls mk → mk pts' rows' = .ok i → extrap = some .notSubclass →
          parametrizedInit argsort delaunay g params interp extrap = .error .typeError) := by
  obtain ⟨b1, b2⟩ := baseInit_errors delaunay g
  refine ⟨fun h => ?_, fun h => ?_, fun d pts hull h1 h2 => ⟨?_, ?_⟩⟩
  · unfold parametrizedInit; rw [b1 h]
  · unfold parametrizedInit; rw [b2 h]
  · rintro rfl
    unfold parametrizedInit; rw [baseInit_ok.mpr ⟨h1, h2⟩]
  · rintro rows rfl
    unfold parametrizedInit; rw [baseInit_ok.mpr ⟨h1, h2⟩]
    simp only
    refine ⟨fun hl => by rw [if_pos (Ne.symm hl)], ?_, ?_⟩
    · rintro hl rfl
      rw [if_neg (by rw [hl]; simp)]; rfl
    · rintro hl pts' rows' mk i ho rfl hi rfl
      rw [if_neg (by rw [hl]; simp)]
      have ho' : sortRows argsort d pts rows = (pts', rows') := ho
      rw [ho']
      unfold buildEstimator
      simp only [hi]

/-- **C60** Construction of a DiscretePDFComponentEstimator: as for parameters, and the last axis of the PDFs has one bin less than there are edges. -/
theorem C60_discrete {ρ β : Type*} (argsort : List ℝ → List ℕ) (delaunay : Grid → Except Err (List (FV ℝ) → Bool)) (g : GridArg) (edges : ArrArg ℝ) (pdf : ArrArg ρ) (nbins : ℕ)
    (interp : List ℝ → ClsArg ρ β) (extrap : Option (List ℝ → ClsArg ρ β)) (e : Estimator β) :
    discreteInit argsort delaunay g edges pdf nbins interp extrap = .ok e ↔ ∃ d pts hull rows ed pts' rows' i x, GoodGrid g d pts ∧ Triangulated delaunay d pts hull ∧
      pdf = .rows rows ∧ rows.length = pts.length ∧ edges = .rows ed ∧ ed.length = nbins + 1 ∧ OrderedGrid argsort d pts rows pts' rows' ∧
      Built pts' rows' (interp ed) (extrap.map (· ed)) i x ∧ e = ⟨d, pts', hull, i, x⟩ := by
  unfold discreteInit
  constructor
  · intro h
    cases hb : baseInit delaunay g with
    | error er => rw [hb] at h; cases h
    | ok b =>
      obtain ⟨d, pts, hull⟩ := b
      rw [hb] at h
      simp only at h
      obtain ⟨h1, h2⟩ := baseInit_ok.mp hb
      cases pdf with
      | notArray => cases h
      | scalar => cases h
      | rows l =>
        simp only at h
        split at h
        · cases h
        · rename_i hl
          cases edges with
          | notArray => cases h
          | scalar => cases h
          | rows ed =>
            simp only at h
            split at h
            · cases h
            · rename_i hn
              obtain ⟨i, x, hbu, rfl⟩ := buildEstimator_ok.mp h
              exact ⟨d, pts, hull, l, ed, _, _, i, x, h1, h2, rfl, (not_not.mp hl).symm, rfl, by omega, rfl, hbu, rfl⟩
  · rintro ⟨d, pts, hull, rows, ed, pts', rows', i, x, h1, h2, rfl, hl, rfl, hn, ho, hbu, rfl⟩
    rw [baseInit_ok.mpr ⟨h1, h2⟩]
    simp only
    rw [if_neg (by rw [hl]; simp), if_neg (by rw [hn]; push_cast; simp)]
    have ho' : sortRows argsort d pts rows = (pts', rows') := ho
    rw [ho']
    exact buildEstimator_ok.mpr ⟨i, x, hbu, rfl⟩

/-- **C60** The exceptions of the PDF estimators, in the documented order. -/
theorem C60_discrete_errors {ρ β : Type*} (argsort : List ℝ → List ℕ) (delaunay : Grid → Except Err (List (FV ℝ) → Bool)) (g : GridArg) (edges : ArrArg ℝ) (pdf : ArrArg ρ) (nbins : ℕ)
    (interp : List ℝ → ClsArg ρ β) (extrap : Option (List ℝ → ClsArg ρ β)) :
    (NotNumeric g → discreteInit argsort delaunay g edges pdf nbins interp extrap = .error .typeError) ∧
    (TooFewPoints g → discreteInit argsort delaunay g edges pdf nbins interp extrap = .error .valueError) ∧
    ∀ d pts hull, GoodGrid g d pts → Triangulated delaunay d pts hull →
      (pdf = .notArray → discreteInit argsort delaunay g edges pdf nbins interp extrap = .error .typeError) ∧
      ∀ rows, pdf = .rows rows →
        (rows.length ≠ pts.length → discreteInit argsort delaunay g edges pdf nbins interp extrap = .error .valueError) ∧
        (rows.length = pts.length → edges = .notArray → discreteInit argsort delaunay g edges pdf nbins interp extrap = .error .typeError) ∧
        ∀ ed, rows.length = pts.length → edges = .rows ed →
          (ed.length ≠ nbins + 1 → discreteInit argsort delaunay g edges pdf nbins interp extrap = .error .valueError) ∧
          (ed.length = nbins + 1 → interp ed = .notSubclass → discreteInit argsort delaunay g edges pdf nbins interp extrap = .error .typeError) ∧
          (ed.length = nbins + 1 → ∀ pts' rows' mk i mkx, OrderedGrid argsort d pts rows pts' rows' → interp ed = .cls mk → mk pts' rows' = .ok i → extrap = some mkx → mkx ed = .notSubclass →
            discreteInit argsort delaunay g edges pdf nbins interp extrap = .error .typeError) := by
  obtain ⟨b1, b2⟩ := baseInit_errors delaunay g
  refine ⟨fun h => ?_, fun h => ?_, fun d pts hull h1 h2 => ⟨?_, ?_⟩⟩
  · unfold discreteInit; rw [b1 h]
  · unfold discreteInit; rw [b2 h]
  · rintro rfl
    unfold discreteInit; rw [baseInit_ok.mpr ⟨h1, h2⟩]
  · rintro rows rfl
    unfold discreteInit; rw [baseInit_ok.mpr ⟨h1, h2⟩]
    simp only
    refine ⟨fun hl => by rw [if_pos (Ne.symm hl)], ?_, ?_⟩
    · rintro hl rfl
      rw [if_neg (by rw [hl]; simp)]
    · rintro ed hl rfl
      rw [if_neg (by rw [hl]; simp)]
      simp only
      refine ⟨fun hn => by rw [if_pos (by omega)], ?_, ?_⟩
      · intro hn hi
        rw [if_neg (by omega), hi]; rfl
      · rintro hn pts' rows' mk i mkx ho hi hmk rfl hx
        rw [if_neg (by omega)]
        have ho' : sortRows argsort d pts rows = (pts', rows') := ho
        rw [ho', hi]
        unfold buildEstimator
        simp only [hmk, Option.map_some, hx]

/-! ## C60: calls -/

/-- **C60** Targets: one axis with one number per dimension, or one row with one number per dimension. Everything else is rejected: TypeError if it is no array,
ValueError for an array of another shape (IndexError for an array without axes). -/
theorem C60_target (d : ℕ) (target : TargetArg) :
    (∀ t, checkTarget d target = .ok t ↔ (target = .oneD t ∧ t.length = d) ∨ target = .twoD d [t]) ∧
    (target = .notArray → checkTarget d target = .error .typeError) ∧
    (∀ t, target = .oneD t → t.length ≠ d → checkTarget d target = .error .valueError) ∧
    (∀ k rows, target = .twoD k rows → rows.length ≠ 1 ∨ k ≠ d → checkTarget d target = .error .valueError) := by
  refine ⟨fun t => ?_, ?_, ?_, ?_⟩
  · cases target with
    | notArray => simp [checkTarget]
    | scalar => simp [checkTarget]
    | oneD s =>
      rw [checkTarget_oneD]
      by_cases h : s.length = d
      · rw [if_neg (by simp [h])]
        simp only [Except.ok.injEq, TargetArg.oneD.injEq, reduceCtorEq, or_false]
        constructor
        · rintro rfl; exact ⟨rfl, h⟩
        · exact fun h => h.1
      · rw [if_pos h]
        simp only [reduceCtorEq, TargetArg.oneD.injEq, or_false, false_iff]
        rintro ⟨rfl, h2⟩; exact h h2
    | twoD k rows =>
      rcases rows with _ | ⟨a, _ | ⟨b, l⟩⟩
      · simp [checkTarget]
      · rw [checkTarget_row]
        by_cases h : k = d
        · rw [if_neg (by simp [h])]; simp [h]
        · rw [if_pos h]; simp [h]
      · simp [checkTarget]
  · rintro rfl; rfl
  · rintro t rfl h; rw [checkTarget_oneD, if_pos h]
  · rintro k rows rfl h
    rcases rows with _ | ⟨a, _ | ⟨b, l⟩⟩
    · rfl
    · rw [checkTarget_row]
      simp only [List.length_singleton, ne_eq, not_true_eq_false, false_or] at h
      rw [if_pos h]
    · rfl

theorem min?_spec {l : List ℝ} {a : ℝ} (h : l.min? = some a) : a ∈ l ∧ ∀ b ∈ l, a ≤ b := by
  rw [List.min?_eq_some_iff] at h
  exact h

theorem max?_spec {l : List ℝ} {a : ℝ} (h : l.max? = some a) : a ∈ l ∧ ∀ b ∈ l, b ≤ a := by
  rw [List.max?_eq_some_iff] at h
  exact h

/-- **C60** A one-dimensional estimator interpolates, without warning, exactly at the targets between its smallest and its largest grid point, both included;
elsewhere (also for NaN) it extrapolates with a warning if there is an extrapolator and raises ValueError otherwise. -/
theorem C60_dispatch_1d {β : Type*} (e : Estimator β) (hd : e.dim = 1) (hg : e.grid ≠ []) (target : TargetArg) (t : FV ℝ) (ht : checkTarget 1 target = .ok [t]) :
    (((∃ x ∈ e.grid, FV.le (.fin (coord x)) t = true) ∧ ∃ x ∈ e.grid, FV.le t (.fin (coord x)) = true) → e.call target = ⟨e.interpolator [t], false⟩) ∧
    (¬ ((∃ x ∈ e.grid, FV.le (.fin (coord x)) t = true) ∧ ∃ x ∈ e.grid, FV.le t (.fin (coord x)) = true) →
      (∀ x, e.extrapolator = some x → e.call target = ⟨x [t], true⟩) ∧ (e.extrapolator = none → e.call target = ⟨.error .valueError, false⟩)) := by
  have hne : e.grid.map coord ≠ [] := by simpa using hg
  obtain ⟨lo, hlo⟩ : ∃ lo, (e.grid.map coord).min? = some lo := by
    cases h : (e.grid.map coord).min? with
    | none => exact absurd (List.min?_eq_none_iff.mp h) hne
    | some lo => exact ⟨lo, rfl⟩
  obtain ⟨hi, hhi⟩ : ∃ hi, (e.grid.map coord).max? = some hi := by
    cases h : (e.grid.map coord).max? with
    | none => exact absurd (List.max?_eq_none_iff.mp h) hne
    | some lo => exact ⟨lo, rfl⟩
  obtain ⟨l1, l2⟩ := min?_spec hlo
  obtain ⟨u1, u2⟩ := max?_spec hhi
  have hin : targetInGrid e [t] = .ok (FV.ge t (.fin lo) && FV.le t (.fin hi)) := by
    unfold targetInGrid
    rw [if_pos hd, hlo, hhi]
    rfl
  have hiff : (FV.ge t (.fin lo) && FV.le t (.fin hi)) = true ↔ ((∃ x ∈ e.grid, FV.le (.fin (coord x)) t = true) ∧ ∃ x ∈ e.grid, FV.le t (.fin (coord x)) = true) := by
    rw [Bool.and_eq_true]
    constructor
    · rintro ⟨h1, h2⟩
      obtain ⟨x, hx, rfl⟩ := List.mem_map.mp l1
      obtain ⟨y, hy, rfl⟩ := List.mem_map.mp u1
      exact ⟨⟨x, hx, h1⟩, ⟨y, hy, h2⟩⟩
    · rintro ⟨⟨x, hx, h1⟩, ⟨y, hy, h2⟩⟩
      have hx' := l2 _ (List.mem_map_of_mem hx)
      have hy' := u2 _ (List.mem_map_of_mem hy)
      cases t with
      | nan => simp [FV.le] at h1
      | ninf => simp [FV.le] at h1
      | pinf => simp [FV.le] at h2
      | fin t =>
        simp only [FV.ge, FV.le_fin, decide_eq_true_eq] at h1 h2 ⊢
        exact ⟨hx'.trans h1, h2.trans hy'⟩
  have hcall : e.call target = (match targetInGrid e [t] with
    | .error err => ⟨.error err, false⟩
    | .ok true => ⟨e.interpolator [t], false⟩
    | .ok false => match e.extrapolator with
      | some x => ⟨x [t], true⟩
      | none => ⟨.error .valueError, false⟩) := by
    unfold Estimator.call
    rw [hd, ht]
    rfl
  rw [hcall, hin]
  constructor
  · intro h
    rw [hiff.mpr h]
  · intro h
    have hf : (FV.ge t (.fin lo) && FV.le t (.fin hi)) = false := by
      rw [← Bool.not_eq_true]; exact fun hc => h (hiff.mp hc)
    rw [hf]
    refine ⟨fun x hx => by rw [hx], fun hx => by rw [hx]⟩

/-- **C60** In two or more dimensions the triangulation decides. -/
theorem C60_dispatch_nd {β : Type*} (e : Estimator β) (hd : 2 ≤ e.dim) (target : TargetArg) (t : List (FV ℝ)) (ht : checkTarget e.dim target = .ok t) :
    (e.inHull t = true → e.call target = ⟨e.interpolator t, false⟩) ∧
    (e.inHull t = false → (∀ x, e.extrapolator = some x → e.call target = ⟨x t, true⟩) ∧ (e.extrapolator = none → e.call target = ⟨.error .valueError, false⟩)) := by
  have hin : targetInGrid e t = .ok (e.inHull t) := by
    unfold targetInGrid
    rw [if_neg (by omega), if_neg (by omega)]
  unfold Estimator.call
  rw [ht]
  simp only [hin]
  refine ⟨fun h => by rw [h], fun h => ⟨fun x hx => by rw [h, hx], fun hx => by rw [h, hx]⟩⟩

/-- **C60** A malformed target raises without warning. -/
theorem C60_bad_target {β : Type*} (e : Estimator β) (target : TargetArg) (err : Err) (h : checkTarget e.dim target = .error err) : e.call target = ⟨.error err, false⟩ := by
  unfold Estimator.call; rw [h]

/-! ## C61: order of the grid points -/

/-- What is assumed about `np.argsort`: some order of the indices in which the numbers do not decrease. -/
def IsArgsort (argsort : List ℝ → List ℕ) : Prop := ∀ l, (argsort l).Perm (List.range l.length) ∧ (takeRows l (argsort l)).Pairwise (· ≤ ·)

theorem takeRows_map {α β : Type*} (f : α → β) (l : List α) (inds : List ℕ) : (takeRows l inds).map f = takeRows (l.map f) inds := by
  unfold takeRows
  rw [List.map_filterMap]
  congr 1
  funext i
  simp

theorem takeRows_perm {α : Type*} {l : List α} {inds : List ℕ} (h : inds.Perm (List.range l.length)) : (takeRows l inds).Perm l := by
  have h1 : (takeRows l inds).Perm (takeRows l (List.range l.length)) := h.filterMap _
  have h2 : takeRows l (List.range l.length) = l := by
    unfold takeRows
    clear h h1
    induction l using List.reverseRecOn with
    | nil => rfl
    | append_singleton l a ih =>
      rw [List.length_append, List.length_singleton, List.range_succ, List.filterMap_append]
      have e1 : (List.range l.length).filterMap (fun i => (l ++ [a])[i]?) = l := by
        conv_rhs => rw [← ih]
        apply List.filterMap_congr
        intro i hi
        rw [List.mem_range] at hi
        rw [List.getElem?_append_left hi]
      rw [e1]
      simp
  rw [h2] at h1
  exact h1

/-- Sorting of points with templates gives the same whatever the order they are given in. -/
theorem sortRows_perm {ρ : Type*} {argsort : List ℝ → List ℕ} (ha : IsArgsort argsort) {l l' : List (List ℝ × ρ)} (hp : l.Perm l') (hn : (l.map fun e => coord e.1).Nodup) :
    sortRows argsort 1 (l.map Prod.fst) (l.map Prod.snd) = sortRows argsort 1 (l'.map Prod.fst) (l'.map Prod.snd) := by
  have key : ∀ l : List (List ℝ × ρ), (l.map fun e => coord e.1).Nodup → sortRows argsort 1 (l.map Prod.fst) (l.map Prod.snd) =
      ((takeRows l (argsort (l.map fun e => coord e.1))).map Prod.fst, (takeRows l (argsort (l.map fun e => coord e.1))).map Prod.snd) ∧
      (takeRows l (argsort (l.map fun e => coord e.1))).Perm l ∧ (takeRows l (argsort (l.map fun e => coord e.1))).Pairwise (fun a b => coord a.1 < coord b.1) := by
    intro l hn
    obtain ⟨h1, h2⟩ := ha (l.map fun e => coord e.1)
    have hperm : (takeRows l (argsort (l.map fun e => coord e.1))).Perm l := takeRows_perm (by simpa using h1)
    refine ⟨?_, hperm, ?_⟩
    · unfold sortRows
      rw [if_pos rfl, takeRows_map, takeRows_map, List.map_map]
      rfl
    · rw [← takeRows_map, List.pairwise_map] at h2
      have hnd : ((takeRows l (argsort (l.map fun e => coord e.1))).map fun e => coord e.1).Nodup := (hperm.map _).nodup_iff.mpr hn
      rw [List.Nodup, List.pairwise_map] at hnd
      exact (h2.and hnd).imp fun h => lt_of_le_of_ne h.1 h.2
  obtain ⟨e1, p1, s1⟩ := key l hn
  obtain ⟨e2, p2, s2⟩ := key l' ((hp.map _).nodup_iff.mp hn)
  have : takeRows l (argsort (l.map fun e => coord e.1)) = takeRows l' (argsort (l'.map fun e => coord e.1)) :=
    ((p1.trans hp).trans p2.symm).eq_of_pairwise (fun a b _ _ h1 h2 => absurd h2 (not_lt.mpr h1.le)) s1 s2
  rw [e1, e2, this]

theorem parametrizedInit_1d {ρ β : Type*} (argsort : List ℝ → List ℕ) (delaunay : Grid → Except Err (List (FV ℝ) → Bool)) (xs : List ℝ) (hx : 2 ≤ xs.length) (rows : List ρ)
    (hl : rows.length = xs.length) (interp : ClsArg ρ β) (extrap : Option (ClsArg ρ β)) :
    parametrizedInit argsort delaunay (.oneD xs) (.rows rows) interp extrap =
      buildEstimator 1 (fun _ => false) (sortRows argsort 1 (xs.map fun x => [x]) rows).1 (sortRows argsort 1 (xs.map fun x => [x]) rows).2 interp extrap := by
  unfold parametrizedInit baseInit
  rw [checkGrid_oneD, if_neg (by omega)]
  simp only [lt_self_iff_false, if_false]
  rw [if_neg (by simp [hl])]

/-- **C61** The same one-dimensional grid points with their parameters in another order give the same estimator: the same result, exception and warning at every
target, for every interpolator and extrapolator. -/
theorem C61_order_parametrized {ρ β : Type*} (argsort : List ℝ → List ℕ) (ha : IsArgsort argsort) (delaunay : Grid → Except Err (List (FV ℝ) → Bool)) (l l' : List (ℝ × ρ)) (hp : l.Perm l')
    (hn : (l.map Prod.fst).Nodup) (interp : ClsArg ρ β) (extrap : Option (ClsArg ρ β)) :
    parametrizedInit argsort delaunay (.oneD (l.map Prod.fst)) (.rows (l.map Prod.snd)) interp extrap =
      parametrizedInit argsort delaunay (.oneD (l'.map Prod.fst)) (.rows (l'.map Prod.snd)) interp extrap := by
  by_cases hx : 2 ≤ l.length
  · rw [parametrizedInit_1d _ _ _ (by simpa using hx) _ (by simp), parametrizedInit_1d _ _ _ (by simpa [← hp.length_eq] using hx) _ (by simp)]
    have e : ∀ l : List (ℝ × ρ), (l.map Prod.fst).map (fun x => [x]) = (l.map fun e => ([e.1], e.2)).map Prod.fst ∧ l.map Prod.snd = (l.map fun e => ([e.1], e.2)).map Prod.snd := by
      intro l; simp [List.map_map, Function.comp_def]
    rw [(e l).1, (e l').1, (e l).2, (e l').2]
    rw [sortRows_perm ha (hp.map fun e => ([e.1], e.2)) (by simpa [List.map_map, Function.comp_def, coord] using hn)]
  · unfold parametrizedInit baseInit
    rw [checkGrid_oneD, checkGrid_oneD, if_pos (by simp; omega), if_pos (by simp [← hp.length_eq]; omega)]

/-- **C61** The same for binned PDFs. -/
theorem C61_order_discrete {ρ β : Type*} (argsort : List ℝ → List ℕ) (ha : IsArgsort argsort) (delaunay : Grid → Except Err (List (FV ℝ) → Bool)) (l l' : List (ℝ × ρ)) (hp : l.Perm l')
    (hn : (l.map Prod.fst).Nodup) (edges : ArrArg ℝ) (nbins : ℕ) (interp : List ℝ → ClsArg ρ β) (extrap : Option (List ℝ → ClsArg ρ β)) :
    discreteInit argsort delaunay (.oneD (l.map Prod.fst)) edges (.rows (l.map Prod.snd)) nbins interp extrap =
      discreteInit argsort delaunay (.oneD (l'.map Prod.fst)) edges (.rows (l'.map Prod.snd)) nbins interp extrap := by
  by_cases hx : 2 ≤ l.length
  · have e : ∀ l : List (ℝ × ρ), (l.map Prod.fst).map (fun x => [x]) = (l.map fun e => ([e.1], e.2)).map Prod.fst ∧ l.map Prod.snd = (l.map fun e => ([e.1], e.2)).map Prod.snd := by
      intro l; simp [List.map_map, Function.comp_def]
    unfold discreteInit baseInit
    rw [checkGrid_oneD, checkGrid_oneD, if_neg (by simp; omega), if_neg (by simp [← hp.length_eq]; omega)]
    simp only [lt_self_iff_false, if_false]
    rw [if_neg (by simp), if_neg (by simp)]
    rw [(e l).1, (e l').1, (e l).2, (e l').2]
    rw [sortRows_perm ha (hp.map fun e => ([e.1], e.2)) (by simpa [List.map_map, Function.comp_def, coord] using hn)]
  · unfold discreteInit baseInit
    rw [checkGrid_oneD, checkGrid_oneD, if_pos (by simp; omega), if_pos (by simp [← hp.length_eq]; omega)]

/-- **C61** Interpolators and extrapolators get increasing grid points, with every template at its point. -/
theorem C61_sorted {ρ : Type*} (argsort : List ℝ → List ℕ) (ha : IsArgsort argsort) (l : List (ℝ × ρ)) :
    ∃ l' : List (ℝ × ρ), l'.Perm l ∧ (l'.map Prod.fst).Pairwise (· ≤ ·) ∧
      sortRows argsort 1 ((l.map Prod.fst).map fun x => [x]) (l.map Prod.snd) = ((l'.map Prod.fst).map fun x => [x], l'.map Prod.snd) := by
  obtain ⟨h1, h2⟩ := ha (l.map Prod.fst)
  refine ⟨takeRows l (argsort (l.map Prod.fst)), takeRows_perm (by simpa using h1), ?_, ?_⟩
  · rw [takeRows_map]; exact h2
  · unfold sortRows
    have : ((l.map Prod.fst).map fun x => [x]).map coord = l.map Prod.fst := by simp [List.map_map, Function.comp_def, coord]
    rw [if_pos rfl, this, takeRows_map, takeRows_map, takeRows_map]

/-! ## The hypotheses can be met -/

/-- a stable argsort -/
noncomputable def stableArgsort (l : List ℝ) : List ℕ := (List.range l.length).insertionSort fun i j => l.getD i 0 ≤ l.getD j 0

theorem stableArgsort_isArgsort : IsArgsort stableArgsort := by
  intro l
  refine ⟨List.perm_insertionSort _ _, ?_⟩
  have hs : (stableArgsort l).Pairwise fun i j => l.getD i 0 ≤ l.getD j 0 := by
    have : Std.Total (fun i j : ℕ => l.getD i 0 ≤ l.getD j 0) := ⟨fun i j => le_total _ _⟩
    have : IsTrans ℕ (fun i j : ℕ => l.getD i 0 ≤ l.getD j 0) := ⟨fun i j k => le_trans⟩
    exact List.pairwise_insertionSort _ _
  have hmem : ∀ i ∈ stableArgsort l, i < l.length := fun i hi => List.mem_range.mp ((List.perm_insertionSort _ _).mem_iff.mp hi)
  have : takeRows l (stableArgsort l) = (stableArgsort l).map fun i => l.getD i 0 := by
    unfold takeRows
    rw [← List.filterMap_eq_map]
    apply List.filterMap_congr
    intro i hi
    simp [List.getElem?_eq_getElem (hmem i hi), List.getD_eq_getElem?_getD]
  rw [this, List.pairwise_map]
  exact hs

/-- a one-dimensional estimator with two grid points in the wrong order that returns the number of templates: it is built, interpolates at the upper end, and refuses
to extrapolate -/
example : ∃ e : Estimator ℕ, parametrizedInit stableArgsort (fun _ => .error .valueError) (.oneD [2, 1]) (.rows [10, 20]) (.cls fun _ rows => .ok fun _ => .ok rows.length) none = .ok e ∧
    GoodGrid (.oneD [2, 1]) 1 [[2], [1]] ∧ (e.call (.twoD 1 [[.fin 2]])).result.toOption = some 2 ∧ (e.call (.oneD [.fin 3])).result.toOption = none := by
  have hg : GoodGrid (.oneD [2, 1]) 1 [[2], [1]] := ⟨by simp, Or.inl ⟨[2, 1], rfl, rfl, rfl⟩⟩
  obtain ⟨l', hp, hs, he⟩ := C61_sorted stableArgsort stableArgsort_isArgsort [((2 : ℝ), 10), (1, 20)]
  have hlen : l'.length = 2 := by simpa using hp.length_eq
  refine ⟨⟨1, (l'.map Prod.fst).map fun x => [x], fun _ => false, fun _ => .ok (l'.map Prod.snd).length, none⟩, ?_, hg, ?_, ?_⟩
  · rw [C60_parametrized]
    exact ⟨1, _, _, _, _, _, _, _, hg, by simp [Triangulated], rfl, rfl, he, ⟨⟨_, rfl, rfl⟩, Or.inl ⟨rfl, rfl⟩⟩, rfl⟩
  · have hmem : ∀ p ∈ [((2 : ℝ), 10), (1, 20)], [p.1] ∈ (l'.map Prod.fst).map fun x => [x] := by
      intro p hpm
      exact List.mem_map_of_mem (List.mem_map_of_mem (hp.mem_iff.mpr hpm))
    rw [(C60_dispatch_1d _ rfl (by simp; rintro rfl; simp at hlen) _ (.fin 2) rfl).1]
    · simp [hlen, Except.toOption]
    · exact ⟨⟨_, hmem (1, 20) (by simp), by simp [coord]⟩, ⟨_, hmem (2, 10) (by simp), by simp [coord]⟩⟩
  · rw [((C60_dispatch_1d _ rfl (by simp; rintro rfl; simp at hlen) _ (.fin 3) rfl).2 ?_).2 rfl]
    · rfl
    · rintro ⟨_, ⟨x, hx, h⟩⟩
      obtain ⟨y, hy, rfl⟩ := List.mem_map.mp hx
      obtain ⟨z, hz, rfl⟩ := List.mem_map.mp hy
      have hz' := hp.mem_iff.mp hz
      simp only [List.mem_cons, List.not_mem_nil, or_false] at hz'
      rcases hz' with rfl | rfl <;> simp [coord] at h <;> norm_num at h

end Pyirf.Interpolation
