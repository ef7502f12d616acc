import Verif.Interpolation.ClassModel
import Verif.Interpolation.AreaProps
import Verif.Interpolation.ExtrapProps
import Verif.Interpolation.QuantileMore
import Mathlib.Topology.LocallyFinite
import Mathlib.Topology.Instances.Real.Lemmas
import Mathlib.Tactic.FunProp

/-!
# C114, C115: construction of the classes; one-dimensional parametrized estimators end to end
-/
set_option linter.unusedSectionVars false
set_option linter.unusedSimpArgs false

namespace Pyirf.Interpolation
open Pyirf Pyirf.Np

/-! ## C114 -/

/-- **C114** Grid arrays: one axis means one dimension, otherwise the length of the second axis is the dimension (further axes are ignored); an array without axes
raises IndexError. -/
theorem C114_dimension (shape : List ℕ) :
    (shape = [] → baseClassInit shape = .error .indexError) ∧ (∀ n, shape = [n] → baseClassInit shape = .ok (n, 1)) ∧
    ∀ n d s, shape = n :: d :: s → baseClassInit shape = .ok (n, d) := by
  refine ⟨?_, ?_, ?_⟩
  · rintro rfl; rfl
  · rintro n rfl; rfl
  · rintro n d s rfl; rfl

/-- the dimension of a grid array of this shape, if it has axes -/
def HasDim (shape : List ℕ) (n d : ℕ) : Prop := (shape = [n] ∧ d = 1) ∨ ∃ s, shape = n :: d :: s

theorem baseClassInit_of_hasDim {shape : List ℕ} {n d : ℕ} (h : HasDim shape n d) : baseClassInit shape = .ok (n, d) := by
  rcases h with ⟨rfl, rfl⟩ | ⟨s, rfl⟩ <;> rfl

/-- **C114** Moment morphing and the simplex extrapolators can be constructed for at most two dimensions only: more raise NotImplementedError, two need a triangulation
(whose error is passed on), one and zero need none. -/
theorem C114_simplex_classes (delaunay : Except Err Unit) (shape : List ℕ) (n d : ℕ) (h : HasDim shape n d) :
    (d < 2 → simplexClassInit delaunay shape = .ok (n, d)) ∧
    (d = 2 → (delaunay = .ok () → simplexClassInit delaunay shape = .ok (n, d)) ∧ ∀ e, delaunay = .error e → simplexClassInit delaunay shape = .error e) ∧
    (2 < d → simplexClassInit delaunay shape = .error .notImplementedError) := by
  unfold simplexClassInit
  rw [baseClassInit_of_hasDim h]
  refine ⟨?_, ?_, ?_⟩
  · intro hd; simp only; rw [if_neg (by omega), if_neg (by omega)]
  · rintro rfl
    refine ⟨?_, ?_⟩
    · rintro rfl; simp
    · rintro e rfl; simp
  · intro hd; simp only; rw [if_neg (by omega), if_pos hd]

/-- **C114** The visible edges extrapolator also needs a positive integer `m`; the dimension and the triangulation are checked first. Nearest neighbor searchers work in every
dimension. -/
theorem C114_options (delaunay : Except Err Unit) (shape : List ℕ) (n d : ℕ) (h : HasDim shape n d) (o : NormOrd) :
    (∀ e, simplexClassInit delaunay shape = .error e → visibleEdgesClassInit delaunay shape o = .error e) ∧
    (simplexClassInit delaunay shape = .ok (n, d) →
      (∀ k : ℕ, 0 < k → o = .num (.fin k) → visibleEdgesClassInit delaunay shape o = .ok (n, d, k)) ∧
      (o = .notNumber → visibleEdgesClassInit delaunay shape o = .error .typeError) ∧
      ((∀ k : ℕ, 0 < k → o ≠ .num (.fin k)) → o ≠ .notNumber → visibleEdgesClassInit delaunay shape o = .error .valueError)) ∧
    (∀ k : ℕ, 0 < k → o = .num (.fin k) → nearestClassInit shape o = .ok (n, d, k)) ∧
    ((∀ k : ℕ, 0 < k → o ≠ .num (.fin k)) → nearestClassInit shape o = .error .valueError) := by
  have key : ∀ x : FV ℝ, (∀ k : ℕ, 0 < k → NormOrd.num x ≠ .num (.fin k)) → checkM (.num x) = .error .valueError ∧ checkOrd (.num x) = .error .valueError := by
    intro x hx
    unfold checkM checkOrd
    cases x with
    | nan => simp [FV.isFinite]
    | ninf => simp [FV.isFinite]
    | pinf => simp [FV.isFinite]
    | fin v =>
      simp only [FV.isFinite, Bool.not_true, Bool.or_false, FV.le_fin, decide_eq_true_eq]
      by_cases h0 : v ≤ 0
      · simp [h0]
      · have : v ≠ (⌊v⌋ : ℝ) := by
          intro hv
          have h1 : (0:ℝ) < ⌊v⌋ := by rw [← hv]; exact not_le.mp h0
          have h2 : 0 < ⌊v⌋ := by exact_mod_cast h1
          refine hx ⌊v⌋.toNat (by omega) ?_
          congr 2
          have : ((⌊v⌋.toNat : ℤ) : ℝ) = v := by rw [Int.toNat_of_nonneg h2.le]; exact hv.symm
          exact_mod_cast this.symm
        simp [h0, this]
  have good : ∀ k : ℕ, 0 < k → checkM (.num (.fin k)) = .ok k ∧ checkOrd (.num (.fin k)) = .ok k := by
    intro k hk
    have : ¬ ((k : ℝ) ≤ 0) := not_le.mpr (by exact_mod_cast hk)
    unfold checkM checkOrd
    simp [FV.isFinite, this]
  refine ⟨?_, ?_, ?_, ?_⟩
  · intro e he
    unfold visibleEdgesClassInit
    rw [he]
  · intro hs
    unfold visibleEdgesClassInit
    rw [hs]
    refine ⟨?_, ?_, ?_⟩
    · rintro k hk rfl
      simp only [(good k hk).1]
    · rintro rfl; rfl
    · intro h1 h2
      cases o with
      | notNumber => exact absurd rfl h2
      | num x => simp only [(key x h1).1]
  · rintro k hk rfl
    unfold nearestClassInit
    rw [baseClassInit_of_hasDim h]
    simp only [(good k hk).2]
  · intro h1
    unfold nearestClassInit
    rw [baseClassInit_of_hasDim h]
    cases o with
    | notNumber => rfl
    | num x => simp only [(key x h1).2]

/-- **C114** Therefore a parametrized estimator on a grid with three or more dimensions cannot have a simplex extrapolator: once grid, parameters and interpolator have been accepted, its
construction raises NotImplementedError, even if no target will ever need an extrapolation. -/
theorem C114_estimator_3d (argsort : List ℝ → List ℕ) (delaunay : Grid → Except Err (List (FV ℝ) → Bool)) (delaunay' : Grid → Except Err Unit)
    (planar : Grid → List (List ℕ → FV ℝ) → Callable (List ℕ → FV ℝ)) (s : List ℕ) (d : ℕ) (hd : 2 < d) (pts : Grid) (hpts : d < pts.length) (hlen : ∀ p ∈ pts, p.length = d)
    (hull : List (FV ℝ) → Bool) (hdel : delaunay pts = .ok hull) (rows : List (List ℕ → FV ℝ)) (hrows : rows.length = pts.length)
    (mk : Grid → List (List ℕ → FV ℝ) → Except Err (Callable (List ℕ → FV ℝ))) (i : Callable (List ℕ → FV ℝ)) (hi : mk pts rows = .ok i) :
    parametrizedInit argsort delaunay (.twoD d pts) (.rows rows) (.cls mk) none = .ok ⟨d, pts, hull, i, none⟩ ∧
    parametrizedInit argsort delaunay (.twoD d pts) (.rows rows) (.cls mk) (some (simplexExtrapolator delaunay' planar s)) = .error .notImplementedError := by
  have hhead : (pts.headD []).length = d := by
    cases pts with
    | nil => simp at hpts
    | cons p ps => exact hlen p (by simp)
  have hc : simplexClassInit (delaunay' pts) (gridShape pts) = .error .notImplementedError :=
    (C114_simplex_classes _ _ pts.length d (Or.inr ⟨[], by rw [gridShape, hhead]⟩)).2.2 hd
  unfold parametrizedInit baseInit
  rw [checkGrid_twoD, if_neg (by omega)]
  simp only [if_pos (show 1 < d by omega), hdel]
  simp only [if_neg (show ¬ (pts.length ≠ rows.length) by simp [hrows]), sortRows, if_neg (show ¬ d = 1 by omega), buildEstimator, simplexExtrapolator, hi, hc]
  exact ⟨trivial, trivial⟩

/-! ## C115 -/

/-- The two grid points that determine the estimate at `t`: neighbours with `t` between them, the two smallest if `t` is below the second, the two largest if `t` is above the last but
one. -/
structure Segment {V : Type*} (l : List (ℝ × V)) (x y : ℝ × V) (t : ℝ) : Prop where
  left : x ∈ l
  right : y ∈ l
  lt : x.1 < y.1
  neighbours : ∀ z ∈ l, z.1 ≤ x.1 ∨ y.1 ≤ z.1
  above : x.1 ≤ t ∨ ∀ z ∈ l, x.1 ≤ z.1
  below : t ≤ y.1 ∨ ∀ z ∈ l, z.1 ≤ y.1

/-- the straight line through two points -/
noncomputable def lineThrough (x y : ℝ × ℝ) (t : ℝ) : ℝ := x.2 + (t - x.1) / (y.1 - x.1) * (y.2 - x.2)

/-- entry `idx` of the parameters at a grid point -/
def entry (idx : List ℕ) (x : ℝ × (List ℕ → ℝ)) : ℝ × ℝ := (x.1, x.2 idx)

theorem lineThrough_right {x y : ℝ × ℝ} (h : x.1 < y.1) : lineThrough x y y.1 = y.2 := by
  unfold lineThrough
  rw [div_self (sub_pos.mpr h).ne']; ring

theorem lineThrough_left (x y : ℝ × ℝ) : lineThrough x y x.1 = x.2 := by
  unfold lineThrough
  simp

theorem eq_of_fst_eq {V : Type*} {l : List (ℝ × V)} (hn : (l.map Prod.fst).Nodup) {x y : ℝ × V} (hx : x ∈ l) (hy : y ∈ l) (h : x.1 = y.1) : x = y :=
  List.inj_on_of_nodup_map hn hx hy h

/-- where two segments meet they give the same value -/
theorem segment_unique {l : List (ℝ × (List ℕ → ℝ))} (hn : (l.map Prod.fst).Nodup) {x y x' y' : ℝ × (List ℕ → ℝ)} {t : ℝ} (h : Segment l x y t) (h' : Segment l x' y' t)
    (idx : List ℕ) : lineThrough (entry idx x) (entry idx y) t = lineThrough (entry idx x') (entry idx y') t := by
  have main : ∀ {x y x' y' : ℝ × (List ℕ → ℝ)}, Segment l x y t → Segment l x' y' t → x.1 < x'.1 →
      lineThrough (entry idx x) (entry idx y) t = lineThrough (entry idx x') (entry idx y') t := by
    intro x y x' y' h h' hlt
    have h1 : y.1 ≤ x'.1 := (h.neighbours x' h'.left).resolve_left (not_le.mpr hlt)
    have h2 : x'.1 ≤ t := h'.above.resolve_right fun hc => absurd (hc x h.left) (not_le.mpr hlt)
    have h3 : t ≤ y.1 := h.below.resolve_right fun hc => absurd (hc y' h'.right) (not_le.mpr (h1.trans_lt h'.lt))
    have e1 : t = y.1 := le_antisymm h3 (h1.trans h2)
    have e2 : y = x' := eq_of_fst_eq hn h.right h'.left (le_antisymm h1 (h2.trans h3))
    subst e2
    rw [e1]
    exact (lineThrough_right (x := entry idx x) (y := entry idx y) h.lt).trans (lineThrough_left (entry idx y) (entry idx y')).symm
  rcases lt_trichotomy x.1 x'.1 with hlt | heq | hgt
  · exact main h h' hlt
  · have e1 := eq_of_fst_eq hn h.left h'.left heq
    subst e1
    have e2 : y = y' := by
      refine eq_of_fst_eq hn h.right h'.right (le_antisymm ?_ ?_)
      · exact (h.neighbours y' h'.right).resolve_left (not_le.mpr h'.lt)
      · exact (h'.neighbours y h.right).resolve_left (not_le.mpr h.lt)
    rw [e2]
  · exact (main h' h hgt).symm

theorem sortRows_line {V ρ : Type*} (f : V → ρ) (argsort : List ℝ → List ℕ) (ha : IsArgsort argsort) (l : List (ℝ × V)) (hn : (l.map Prod.fst).Nodup) :
    ∃ l' : List (ℝ × V), l'.Perm l ∧ (l'.map Prod.fst).Pairwise (· < ·) ∧
      sortRows argsort 1 ((l.map Prod.fst).map fun x => [x]) (l.map fun p => f p.2) = ((l'.map Prod.fst).map fun x => [x], l'.map fun p => f p.2) := by
  obtain ⟨h1, h2⟩ := ha (l.map Prod.fst)
  have hp : (takeRows l (argsort (l.map Prod.fst))).Perm l := takeRows_perm (by simpa using h1)
  refine ⟨takeRows l (argsort (l.map Prod.fst)), hp, ?_, ?_⟩
  · rw [← takeRows_map] at h2
    have hnd : ((takeRows l (argsort (l.map Prod.fst))).map Prod.fst).Nodup := (hp.map _).nodup_iff.mpr hn
    exact (h2.and hnd).imp fun h => lt_of_le_of_ne h.1 h.2
  · unfold sortRows
    have : ((l.map Prod.fst).map fun x => [x]).map coord = l.map Prod.fst := by simp [List.map_map, Function.comp_def, coord]
    rw [if_pos rfl, this, takeRows_map, takeRows_map, takeRows_map]

theorem griddata1D_segment {N : ℕ} {grid : Fin (N + 2) → ℝ} (hs : StrictMono grid) {t : ℝ} (h0 : grid 0 ≤ t) (h1 : t ≤ grid (Fin.last _)) :
    ∃ (k : ℕ) (hk : k + 1 < N + 2), grid ⟨k, by omega⟩ ≤ t ∧ t ≤ grid ⟨k + 1, hk⟩ ∧
      griddata1D grid t = some [(⟨k, by omega⟩, 1 - (t - grid ⟨k, by omega⟩) / (grid ⟨k + 1, hk⟩ - grid ⟨k, by omega⟩)),
        (⟨k + 1, hk⟩, (t - grid ⟨k, by omega⟩) / (grid ⟨k + 1, hk⟩ - grid ⟨k, by omega⟩))] := by
  have hout : ¬ (t < grid 0 ∨ grid (Fin.last _) < t) := by push Not; exact ⟨h0, h1⟩
  have hc := griddata1D_convex hs t
  obtain ⟨k, hk⟩ : ∃ k, min (max ((Finset.univ.filter fun i => grid i < t).card) 1) (N + 1) = k + 1 := ⟨_, (Nat.succ_pred_eq_of_pos (by omega)).symm⟩
  have hkN : k + 1 < N + 2 := by omega
  have hg : griddata1D grid t = some [(⟨k, by omega⟩, 1 - (t - grid ⟨k, by omega⟩) / (grid ⟨k + 1, hkN⟩ - grid ⟨k, by omega⟩)),
        (⟨k + 1, hkN⟩, (t - grid ⟨k, by omega⟩) / (grid ⟨k + 1, hkN⟩ - grid ⟨k, by omega⟩))] := by
    unfold griddata1D
    rw [if_neg hout]
    simp only [hk, Nat.add_sub_cancel]
  refine ⟨k, hkN, ?_, ?_, hg⟩
  all_goals
    have hw := (hc.1 _ hg).1
    have hlt : grid ⟨k, by omega⟩ < grid ⟨k + 1, hkN⟩ := hs (by rw [Fin.lt_def]; simp)
    have w1 := hw _ (List.mem_cons_self)
    have w2 := hw _ (List.mem_cons_of_mem _ List.mem_cons_self)
    simp only at w1 w2
  · by_contra hcon
    have : (t - grid ⟨k, by omega⟩) / (grid ⟨k + 1, hkN⟩ - grid ⟨k, by omega⟩) < 0 := div_neg_of_neg_of_pos (by linarith) (by linarith)
    linarith
  · have : (t - grid ⟨k, by omega⟩) / (grid ⟨k + 1, hkN⟩ - grid ⟨k, by omega⟩) ≤ 1 := by linarith
    rw [div_le_one (by linarith)] at this
    linarith

theorem segmentCoefficients_fin (g : Fin 2 → ℝ) (t : ℝ) :
    segmentCoefficients g (.fin t) = match linesegmentCoefficients g t with
      | .error e => .error e
      | .ok c => Except.ok fun i => .fin (c i) := by
  unfold segmentCoefficients linesegmentCoefficients
  by_cases h : (segmentMatrix g).det = 0
  · rw [if_pos h, if_pos h]
  · rw [if_neg h, if_neg h]
    simp only
    congr 1
    funext i
    have : (List.ofFn fun j : Fin 2 => pow01 (.fin t - .fin (g 0)) j * .fin ((segmentMatrix g)⁻¹ j i)) =
        (List.ofFn fun j : Fin 2 => (t - g 0) ^ (j : ℕ) * (segmentMatrix g)⁻¹ j i).map .fin := by
      simp [List.ofFn_succ, pow01]
    rw [this, fsum_fin, List.sum_ofFn]

theorem lineExtrapolate_fin (grid : List ℝ) (params : ND (FV ℝ)) (t : ℝ) : lineExtrapolate grid params (.fin t) = simplexExtrapolate1D grid params t := by
  unfold lineExtrapolate simplexExtrapolate1D
  simp only [segmentCoefficients_fin, FV.lt_fin]
  cases grid.min? with
  | none => rfl
  | some lo =>
    simp only
    split
    · rfl
    · by_cases hlt : t < lo
      · simp only [hlt, decide_true, if_true]
        generalize linesegmentCoefficients _ t = r
        cases r <;> rfl
      · simp only [hlt, decide_false, Bool.false_eq_true, if_false]
        generalize linesegmentCoefficients _ t = r
        cases r <;> rfl

theorem stackRows_finite (m : ℕ) (s : List ℕ) (l : List (ℝ × (List ℕ → ℝ))) :
    FiniteParams (stackRows (m :: s) (l.map fun p idx => .fin (p.2 idx))) l.length m s (fun idx => (l.getD (idx.headD 0) (0, fun _ => 0)).2 idx.tail) := by
  refine ⟨by simp [stackRows], fun idx => ?_⟩
  unfold stackRows
  simp only [List.getD_eq_getElem?_getD, List.getElem?_map]
  cases l[idx.headD 0]? <;> rfl

/-- The estimator of C115 -/
theorem lineEstimator {argsort : List ℝ → List ℕ} (ha : IsArgsort argsort) (delaunay : Grid → Except Err (List (FV ℝ) → Bool)) (delaunay' : Grid → Except Err Unit)
    (planar : Grid → List (List ℕ → FV ℝ) → Callable (List ℕ → FV ℝ)) (sh : List ℕ) (l : List (ℝ × (List ℕ → ℝ))) (h2 : 2 ≤ l.length) (hn : (l.map Prod.fst).Nodup) :
    ∃ l' : List (ℝ × (List ℕ → ℝ)), l'.Perm l ∧ (l'.map Prod.fst).Pairwise (· < ·) ∧ ∃ i x,
      parametrizedInit argsort delaunay (.oneD (l.map Prod.fst)) (.rows (l.map fun p idx => .fin (p.2 idx))) (gridDataInterpolator griddataLine)
        (some (simplexExtrapolator delaunay' planar sh)) = .ok ⟨1, (l'.map Prod.fst).map fun x => [x], fun _ => false, i, some x⟩ ∧
      (∀ t, i t = .ok fun c => match griddataLine ((l'.map Prod.fst).map fun x => [x]) t with
        | none => .nan
        | some w => fsum (w.map fun e => .fin e.2 * ((l'.map fun p idx => (FV.fin (p.2 idx) : FV ℝ)).getD e.1 fun _ => .nan) c)) ∧
      ∀ t, x t = match lineExtrapolate (l'.map Prod.fst) (stackRows sh (l'.map fun p idx => (FV.fin (p.2 idx) : FV ℝ))) (t.headD .nan) with
        | .error e => .error e
        | .ok r => .ok fun idx => r.get (0 :: idx) := by
  obtain ⟨l', hp, hs, hsort⟩ := sortRows_line (fun v : List ℕ → ℝ => fun idx => (FV.fin (v idx) : FV ℝ)) argsort ha l hn
  have hlen : l'.length = l.length := hp.length_eq
  have hcoord : ((l'.map Prod.fst).map fun x => [x]).map coord = l'.map Prod.fst := by simp [List.map_map, Function.comp_def, coord]
  have hclass : simplexClassInit (delaunay' ((l'.map Prod.fst).map fun x => [x])) (gridShape ((l'.map Prod.fst).map fun x => [x])) = .ok (l'.length, 1) := by
    refine (C114_simplex_classes _ _ l'.length 1 (Or.inr ⟨[], ?_⟩)).1 (by omega)
    have : (((l'.map Prod.fst).map fun x => [x]).headD []).length = 1 := by
      cases l' with
      | nil => simp at hlen; omega
      | cons a l' => rfl
    rw [gridShape, this]
    simp
  refine ⟨l', hp, hs, fun t => .ok fun c => match griddataLine ((l'.map Prod.fst).map fun x => [x]) t with
        | none => .nan
        | some w => fsum (w.map fun e => .fin e.2 * ((l'.map fun p idx => (FV.fin (p.2 idx) : FV ℝ)).getD e.1 fun _ => .nan) c),
      fun t => match lineExtrapolate (l'.map Prod.fst) (stackRows sh (l'.map fun p idx => (FV.fin (p.2 idx) : FV ℝ))) (t.headD .nan) with
        | .error e => .error e
        | .ok r => .ok fun idx => r.get (0 :: idx), ?_, fun t => rfl, fun t => rfl⟩
  rw [parametrizedInit_1d argsort delaunay _ (by simpa using h2) _ (by simp), hsort]
  simp only [buildEstimator, gridDataInterpolator, simplexExtrapolator, hclass, if_true, hcoord]
  rfl

theorem mem_line_grid {V : Type*} {l l' : List (ℝ × V)} (hp : l'.Perm l) (t : FV ℝ) :
    ((∃ x ∈ (l'.map Prod.fst).map fun x => [x], FV.le (.fin (coord x)) t = true) ↔ ∃ p ∈ l, FV.le (.fin p.1) t = true) ∧
    ((∃ x ∈ (l'.map Prod.fst).map fun x => [x], FV.le t (.fin (coord x)) = true) ↔ ∃ p ∈ l, FV.le t (.fin p.1) = true) := by
  constructor
  all_goals
    constructor
    · rintro ⟨x, hx, h⟩
      obtain ⟨y, hy, rfl⟩ := List.mem_map.mp hx
      obtain ⟨z, hz, rfl⟩ := List.mem_map.mp hy
      exact ⟨z, hp.mem_iff.mp hz, h⟩
    · rintro ⟨z, hz, h⟩
      exact ⟨[z.1], List.mem_map_of_mem (List.mem_map_of_mem (hp.mem_iff.mpr hz)), h⟩

theorem dispatch_line {V β : Type*} {l l' : List (ℝ × V)} (hp : l'.Perm l) (hne : l ≠ []) (i : Callable β) (x : Option (Callable β)) (t : FV ℝ) :
    (((∃ p ∈ l, FV.le (.fin p.1) t = true) ∧ ∃ p ∈ l, FV.le t (.fin p.1) = true) →
      (⟨1, (l'.map Prod.fst).map fun x => [x], fun _ => false, i, x⟩ : Estimator β).call (.oneD [t]) = ⟨i [t], false⟩) ∧
    (¬ ((∃ p ∈ l, FV.le (.fin p.1) t = true) ∧ ∃ p ∈ l, FV.le t (.fin p.1) = true) →
      (∀ y, x = some y → (⟨1, (l'.map Prod.fst).map fun x => [x], fun _ => false, i, x⟩ : Estimator β).call (.oneD [t]) = ⟨y [t], true⟩) ∧
      (x = none → (⟨1, (l'.map Prod.fst).map fun x => [x], fun _ => false, i, x⟩ : Estimator β).call (.oneD [t]) = ⟨.error .valueError, false⟩)) := by
  rw [← (mem_line_grid hp t).1, ← (mem_line_grid hp t).2]
  exact C60_dispatch_1d (⟨1, (l'.map Prod.fst).map fun x => [x], fun _ => false, i, x⟩ : Estimator β) rfl
    (by simp only [ne_eq, List.map_eq_nil_iff]; rintro rfl; exact hne hp.nil_eq.symm) (.oneD [t]) t rfl

theorem segment_of_sorted {V : Type*} {l l' : List (ℝ × V)} (hp : l'.Perm l) (hs : (l'.map Prod.fst).Pairwise (· < ·)) (k : ℕ) (hk : k + 1 < l'.length) (t : ℝ)
    (h1 : l'[k].1 ≤ t ∨ k = 0) (h2 : t ≤ l'[k + 1].1 ∨ k + 2 = l'.length) : Segment l l'[k] l'[k + 1] t := by
  have hmono : ∀ i j (hi : i < l'.length) (hj : j < l'.length), i < j → l'[i].1 < l'[j].1 := by
    intro i j hi hj hij
    have := List.pairwise_iff_getElem.mp hs i j (by simpa using hi) (by simpa using hj) hij
    simpa using this
  have hmono' : ∀ i j (hi : i < l'.length) (hj : j < l'.length), i ≤ j → l'[i].1 ≤ l'[j].1 := by
    intro i j hi hj hij
    rcases hij.lt_or_eq with h | rfl
    · exact (hmono i j hi hj h).le
    · exact le_rfl
  refine ⟨hp.mem_iff.mp (List.getElem_mem _), hp.mem_iff.mp (List.getElem_mem _), hmono _ _ _ _ (by omega), ?_, ?_, ?_⟩
  · intro z hz
    obtain ⟨j, hj, rfl⟩ := List.getElem_of_mem (hp.mem_iff.mpr hz)
    rcases Nat.lt_or_ge k j with h | h
    · exact Or.inr (hmono' _ _ _ _ h)
    · exact Or.inl (hmono' _ _ _ _ h)
  · refine h1.imp_right fun h z hz => ?_
    obtain ⟨j, hj, rfl⟩ := List.getElem_of_mem (hp.mem_iff.mpr hz)
    subst h
    exact hmono' _ _ _ _ (by omega)
  · refine h2.imp_right fun h z hz => ?_
    obtain ⟨j, hj, rfl⟩ := List.getElem_of_mem (hp.mem_iff.mpr hz)
    exact hmono' _ _ _ _ (by omega)

/-- **C115** A one-dimensional parametrized estimator with linear interpolation and simplex extrapolation, for two or more different grid points in any order with finite
parameters of any shape: construction succeeds, every finite target gets the straight line through the two grid points of its segment, entry by entry, and there is a warning exactly
for targets outside the range of the grid. -/
theorem C115_polyline (argsort : List ℝ → List ℕ) (ha : IsArgsort argsort) (delaunay : Grid → Except Err (List (FV ℝ) → Bool)) (delaunay' : Grid → Except Err Unit)
    (planar : Grid → List (List ℕ → FV ℝ) → Callable (List ℕ → FV ℝ)) (m : ℕ) (s : List ℕ) (l : List (ℝ × (List ℕ → ℝ))) (h2 : 2 ≤ l.length) (hn : (l.map Prod.fst).Nodup) :
    ∃ e, parametrizedInit argsort delaunay (.oneD (l.map Prod.fst)) (.rows (l.map fun p idx => .fin (p.2 idx))) (gridDataInterpolator griddataLine)
        (some (simplexExtrapolator delaunay' planar (m :: s))) = .ok e ∧
      ∀ t : ℝ, ∃ r w, e.call (.oneD [.fin t]) = ⟨.ok r, w⟩ ∧ (w = true ↔ (∀ p ∈ l, t < p.1) ∨ ∀ p ∈ l, p.1 < t) ∧
        (∃ x y, Segment l x y t) ∧ ∀ x y, Segment l x y t → ∀ idx, r idx = .fin (lineThrough (entry idx x) (entry idx y) t) := by
  obtain ⟨l', hp, hs, i, x, he, hi, hx⟩ := lineEstimator ha delaunay delaunay' planar (m :: s) l h2 hn
  have hlen : l'.length = l.length := hp.length_eq
  refine ⟨_, he, fun t => ?_⟩
  have hdisp := dispatch_line hp (by rintro rfl; simp at h2) i (some x) (.fin t)
  simp only [FV.le_fin, decide_eq_true_eq] at hdisp
  have finish : ∀ (r : List ℕ → FV ℝ) (w : Bool) (k : ℕ) (hk : k + 1 < l'.length),
      (⟨1, (l'.map Prod.fst).map fun x => [x], fun _ => false, i, some x⟩ : Estimator (List ℕ → FV ℝ)).call (.oneD [.fin t]) = ⟨.ok r, w⟩ →
      (w = true ↔ (∀ p ∈ l, t < p.1) ∨ ∀ p ∈ l, p.1 < t) → (l'[k].1 ≤ t ∨ k = 0) → (t ≤ l'[k + 1].1 ∨ k + 2 = l'.length) →
      (∀ idx, r idx = .fin (lineThrough (entry idx l'[k]) (entry idx l'[k + 1]) t)) →
      ∃ r w, (⟨1, (l'.map Prod.fst).map fun x => [x], fun _ => false, i, some x⟩ : Estimator (List ℕ → FV ℝ)).call (.oneD [.fin t]) = ⟨.ok r, w⟩ ∧
        (w = true ↔ (∀ p ∈ l, t < p.1) ∨ ∀ p ∈ l, p.1 < t) ∧ (∃ x y, Segment l x y t) ∧
        ∀ x y, Segment l x y t → ∀ idx, r idx = .fin (lineThrough (entry idx x) (entry idx y) t) := by
    intro r w k hk hc hw h1 h3 hr
    have hseg := segment_of_sorted hp hs k hk t h1 h3
    refine ⟨r, w, hc, hw, ⟨_, _, hseg⟩, fun x y hxy idx => ?_⟩
    rw [hr idx, segment_unique hn hseg hxy idx]
  by_cases hin : (∃ p ∈ l, p.1 ≤ t) ∧ ∃ p ∈ l, t ≤ p.1
  · have hcall := hdisp.1 hin
    have hw : ((false : Bool) = true ↔ (∀ p ∈ l, t < p.1) ∨ ∀ p ∈ l, p.1 < t) := by
      refine iff_of_false (by simp) ?_
      obtain ⟨⟨p, hpm, h3⟩, q, hq, h4⟩ := hin
      rintro (h | h)
      · exact absurd (h p hpm) (not_lt.mpr h3)
      · exact absurd (h q hq) (not_lt.mpr h4)
    have hN : l'.length - 2 + 2 = l'.length := by omega
    have hmono : StrictMono (fun i : Fin (((l'.map Prod.fst).map fun x => [x]).length - 2 + 2) => coord (((l'.map Prod.fst).map fun x => [x]).getD i.val [])) := by
      intro a b hab
      have ha' : a.val < l'.length := by have := a.isLt; simp at this; omega
      have hb' : b.val < l'.length := by have := b.isLt; simp at this; omega
      have := List.pairwise_iff_getElem.mp hs a.val b.val (by simpa using ha') (by simpa using hb') hab
      simpa [List.getD_eq_getElem?_getD, List.getElem?_eq_getElem ha', List.getElem?_eq_getElem hb', coord] using this
    have hval : ∀ (a : ℕ) (h : a < l'.length), coord (((l'.map Prod.fst).map fun x => [x]).getD a []) = l'[a].1 := by
      intro a h
      simp [List.getD_eq_getElem?_getD, List.getElem?_eq_getElem h, coord]
    have b0 : coord (((l'.map Prod.fst).map fun x => [x]).getD (0 : Fin (((l'.map Prod.fst).map fun x => [x]).length - 2 + 2)).val []) ≤ t := by
      obtain ⟨⟨p, hpm, h3⟩, -⟩ := hin
      obtain ⟨j, hj, rfl⟩ := List.getElem_of_mem (hp.mem_iff.mpr hpm)
      refine le_trans ?_ h3
      rw [← hval j hj]
      exact hmono.monotone (a := 0) (b := ⟨j, by simp; omega⟩) (Fin.zero_le _)
    have b1 : t ≤ coord (((l'.map Prod.fst).map fun x => [x]).getD (Fin.last (((l'.map Prod.fst).map fun x => [x]).length - 2 + 1)).val []) := by
      obtain ⟨-, p, hpm, h3⟩ := hin
      obtain ⟨j, hj, rfl⟩ := List.getElem_of_mem (hp.mem_iff.mpr hpm)
      refine le_trans h3 ?_
      rw [← hval j hj]
      exact hmono.monotone (a := ⟨j, by simp; omega⟩) (b := Fin.last _) (Fin.le_last _)
    obtain ⟨k, hk, s1, s2, hg⟩ := griddata1D_segment hmono b0 b1
    have hk' : k + 1 < l'.length := by simp at hk; omega
    simp only [hval k (by omega), hval (k + 1) hk'] at s1 s2 hg
    refine finish _ false k hk' (hcall.trans (by rw [hi])) hw (Or.inl s1) (Or.inl s2) fun idx => ?_
    have hgl : griddataLine ((l'.map Prod.fst).map fun x => [x]) [.fin t] =
        some [(k, 1 - (t - l'[k].1) / (l'[k + 1].1 - l'[k].1)), (k + 1, (t - l'[k].1) / (l'[k + 1].1 - l'[k].1))] := by
      unfold griddataLine
      simp only
      rw [dif_pos (show 2 ≤ ((l'.map Prod.fst).map fun x => [x]).length by simp; omega), hg]
      rfl
    simp only [hgl]
    simp only [List.map_cons, List.map_nil, List.getD_eq_getElem?_getD, List.getElem?_map, List.getElem?_eq_getElem (show k < l'.length by omega), List.getElem?_eq_getElem hk',
      Option.map_some, Option.getD_some]
    unfold fsum lineThrough entry
    show FV.fin _ = FV.fin _
    congr 1
    simp only [List.foldr]
    show _ + (_ + 0) = _
    ring
  · have hcall := (hdisp.2 hin).1 x rfl
    have hside : (∀ p ∈ l, t < p.1) ∨ ∀ p ∈ l, p.1 < t := by
      rw [not_and_or] at hin
      push Not at hin
      exact hin
    have hl : (l'.map Prod.fst).length = l'.length := by simp
    have h0 : (l'.map Prod.fst)[0]'(by simp; omega) = (l'[0]'(by omega)).1 := by simp
    have run : ∀ (k : ℕ) (hk : k + 1 < l'.length), ((t < (l'[0]'(by omega)).1 ∧ k = 0) ∨ ((l'[0]'(by omega)).1 ≤ t ∧ k + 2 = l'.length)) →
        ∃ r, x [.fin t] = .ok r ∧ ∀ idx, r idx = .fin (lineThrough (entry idx l'[k]) (entry idx l'[k + 1]) t) := by
      intro k hk hcase
      obtain ⟨r, hr, -, hrv⟩ := C51_line (l'.map Prod.fst) hs (by simp; omega) (stackRows (m :: s) (l'.map fun p idx => (FV.fin (p.2 idx) : FV ℝ)))
        (by rw [hl]; exact stackRows_finite m s l') t k (k + 1) (by simp; omega) (by simpa using hk) (by
          rw [h0]
          rcases hcase with ⟨h, rfl⟩ | ⟨h, hk2⟩
          · exact Or.inl ⟨h, rfl, rfl⟩
          · exact Or.inr ⟨h, by simp; omega, by simp; omega⟩)
      refine ⟨_, by rw [hx, List.headD_cons, lineExtrapolate_fin, hr], fun idx => ?_⟩
      rw [hrv idx]
      simp [lineThrough, entry, List.getD_eq_getElem?_getD, List.getElem?_eq_getElem (show k < l'.length by omega), List.getElem?_eq_getElem hk]
    rcases hside with hb | hb
    · have hlt := hb _ (hp.mem_iff.mp (List.getElem_mem (show 0 < l'.length by omega)))
      obtain ⟨r, hr, hrv⟩ := run 0 (by omega) (Or.inl ⟨hlt, rfl⟩)
      exact finish r true 0 (by omega) (hcall.trans (by rw [hr])) (iff_of_true rfl (Or.inl hb)) (Or.inr rfl) (Or.inl (hb _ (hp.mem_iff.mp (List.getElem_mem _))).le) hrv
    · have hlt := hb _ (hp.mem_iff.mp (List.getElem_mem (show 0 < l'.length by omega)))
      obtain ⟨r, hr, hrv⟩ := run (l'.length - 2) (by omega) (Or.inr ⟨hlt.le, by omega⟩)
      exact finish r true (l'.length - 2) (by omega) (hcall.trans (by rw [hr])) (iff_of_true rfl (Or.inr hb)) (Or.inl (hb _ (hp.mem_iff.mp (List.getElem_mem _))).le)
        (Or.inr (by omega)) hrv

/-- **C115** It is exact, inside and outside the range, for parameters that are an affine function of the grid point, and returns the parameters of a grid point at that point. -/
theorem C115_exact (argsort : List ℝ → List ℕ) (ha : IsArgsort argsort) (delaunay : Grid → Except Err (List (FV ℝ) → Bool)) (delaunay' : Grid → Except Err Unit)
    (planar : Grid → List (List ℕ → FV ℝ) → Callable (List ℕ → FV ℝ)) (m : ℕ) (s : List ℕ) (l : List (ℝ × (List ℕ → ℝ))) (h2 : 2 ≤ l.length) (hn : (l.map Prod.fst).Nodup) :
    ∃ e, parametrizedInit argsort delaunay (.oneD (l.map Prod.fst)) (.rows (l.map fun p idx => .fin (p.2 idx))) (gridDataInterpolator griddataLine)
        (some (simplexExtrapolator delaunay' planar (m :: s))) = .ok e ∧
      ∀ t : ℝ, ∃ r w, e.call (.oneD [.fin t]) = ⟨.ok r, w⟩ ∧
        (∀ p ∈ l, t = p.1 → ∀ idx, r idx = .fin (p.2 idx)) ∧
        ∀ (a b : ℝ) (idx : List ℕ), (∀ p ∈ l, p.2 idx = a * p.1 + b) → r idx = .fin (a * t + b) := by
  obtain ⟨e, he, h⟩ := C115_polyline argsort ha delaunay delaunay' planar m s l h2 hn
  refine ⟨e, he, fun t => ?_⟩
  obtain ⟨r, w, hc, -, ⟨x, y, hxy⟩, hr⟩ := h t
  refine ⟨r, w, hc, ?_, ?_⟩
  · rintro p hp rfl idx
    rw [hr x y hxy idx]
    congr 1
    rcases hxy.neighbours p hp with h | h
    · have : p = x := by
        refine eq_of_fst_eq hn hp hxy.left (le_antisymm h ?_)
        rcases hxy.above with h' | h'
        · exact h'
        · exact h' p hp
      subst this
      exact lineThrough_left (entry idx p) (entry idx y)
    · have : p = y := by
        refine eq_of_fst_eq hn hp hxy.right (le_antisymm ?_ h)
        rcases hxy.below with h' | h'
        · exact h'
        · exact h' p hp
      subst this
      exact lineThrough_right (x := entry idx x) (y := entry idx p) hxy.lt
  · intro a b idx hab
    rw [hr x y hxy idx]
    congr 1
    have := (sub_pos.mpr hxy.lt).ne'
    simp only [lineThrough, entry, hab x hxy.left, hab y hxy.right]
    field_simp
    ring

/-- **C115** Every entry of the result is a continuous function of the target, also where interpolation and extrapolation meet. -/
theorem C115_continuous (argsort : List ℝ → List ℕ) (ha : IsArgsort argsort) (delaunay : Grid → Except Err (List (FV ℝ) → Bool)) (delaunay' : Grid → Except Err Unit)
    (planar : Grid → List (List ℕ → FV ℝ) → Callable (List ℕ → FV ℝ)) (m : ℕ) (s : List ℕ) (l : List (ℝ × (List ℕ → ℝ))) (h2 : 2 ≤ l.length) (hn : (l.map Prod.fst).Nodup)
    (e : Estimator (List ℕ → FV ℝ))
    (he : parametrizedInit argsort delaunay (.oneD (l.map Prod.fst)) (.rows (l.map fun p idx => .fin (p.2 idx))) (gridDataInterpolator griddataLine)
        (some (simplexExtrapolator delaunay' planar (m :: s))) = .ok e) (idx : List ℕ) :
    ∃ f : ℝ → ℝ, Continuous f ∧ ∀ t : ℝ, ∃ r w, e.call (.oneD [.fin t]) = ⟨.ok r, w⟩ ∧ r idx = .fin (f t) := by
  obtain ⟨e', he', h⟩ := C115_polyline argsort ha delaunay delaunay' planar m s l h2 hn
  rw [he] at he'
  cases he'
  choose r w hc hw hex hr using h
  choose X Y hXY using hex
  refine ⟨fun t => lineThrough (entry idx (X t)) (entry idx (Y t)) t, ?_, fun t => ⟨r t, w t, hc t, hr t _ _ (hXY t) idx⟩⟩
  let S : Fin l.length × Fin l.length → Set ℝ := fun ij => {t | Segment l l[ij.1] l[ij.2] t}
  refine LocallyFinite.continuous (f := S) (locallyFinite_of_finite _) ?_ ?_ ?_
  · rw [Set.eq_univ_iff_forall]
    intro t
    obtain ⟨i, hi, e1⟩ := List.getElem_of_mem (hXY t).left
    obtain ⟨j, hj, e2⟩ := List.getElem_of_mem (hXY t).right
    refine Set.mem_iUnion.mpr ⟨(⟨i, hi⟩, ⟨j, hj⟩), ?_⟩
    show Segment l l[i] l[j] t
    rw [e1, e2]
    exact hXY t
  · rintro ⟨i, j⟩
    by_cases hne : ∃ t, Segment l l[i] l[j] t
    · obtain ⟨t0, h0⟩ := hne
      have : S (i, j) = {t | l[i].1 ≤ t ∨ ∀ z ∈ l, l[i].1 ≤ z.1} ∩ {t | t ≤ l[j].1 ∨ ∀ z ∈ l, z.1 ≤ l[j].1} := by
        ext t
        exact ⟨fun h => ⟨h.above, h.below⟩, fun h => ⟨h0.left, h0.right, h0.lt, h0.neighbours, h.1, h.2⟩⟩
      rw [this]
      refine IsClosed.inter ?_ ?_
      · exact isClosed_Ici.union isClosed_const
      · exact isClosed_Iic.union isClosed_const
    · have : S (i, j) = ∅ := by
        ext t
        exact ⟨fun h => hne ⟨t, h⟩, fun h => h.elim⟩
      rw [this]
      exact isClosed_empty
  · rintro ⟨i, j⟩
    have : ContinuousOn (fun t => lineThrough (entry idx l[i]) (entry idx l[j]) t) (S (i, j)) := by
      unfold lineThrough
      fun_prop
    exact this.congr fun t ht => segment_unique hn (hXY t) ht idx

theorem segmentMatrix_det (g : Fin 2 → ℝ) : (segmentMatrix g).det = g 1 - g 0 := by
  rw [Matrix.det_fin_two]; simp [segmentMatrix]

theorem segmentMatrix_inv (g : Fin 2 → ℝ) (h : g 0 < g 1) :
    (segmentMatrix g)⁻¹ 0 0 = 1 ∧ (segmentMatrix g)⁻¹ 0 1 = 0 ∧ (segmentMatrix g)⁻¹ 1 0 = -(1 / (g 1 - g 0)) ∧ (segmentMatrix g)⁻¹ 1 1 = 1 / (g 1 - g 0) := by
  have hd : (g 1 - g 0) ≠ 0 := (sub_pos.mpr h).ne'
  rw [Matrix.inv_def, segmentMatrix_det, Matrix.adjugate_fin_two]
  simp [segmentMatrix, hd]

/-- The value for a target that is not finite: `p` and `q` are the parameters at the two grid points used, in increasing order of the points. -/
noncomputable def farValue (p q : ℝ) : FV ℝ → FV ℝ
  | .pinf => if p < 0 ∧ 0 < q then .pinf else if 0 < p ∧ q < 0 then .ninf else .nan
  | .ninf => if p < 0 ∧ 0 < q then .ninf else if 0 < p ∧ q < 0 then .pinf else .nan
  | _ => .nan

theorem far_sum (g : Fin 2 → ℝ) (h : g 0 < g 1) (t : FV ℝ) (ht : t.isFinite = false) (p q : ℝ) :
    ∃ c, segmentCoefficients g t = .ok c ∧ fsum (List.ofFn fun i : Fin 2 => c i * .fin (![p, q] i)) = farValue p q t := by
  obtain ⟨i00, i01, i10, i11⟩ := segmentMatrix_inv g h
  have hd : 0 < 1 / (g 1 - g 0) := one_div_pos.mpr (sub_pos.mpr h)
  refine ⟨_, by unfold segmentCoefficients; rw [if_neg (by rw [segmentMatrix_det]; exact (sub_pos.mpr h).ne')], ?_⟩
  simp only [List.ofFn_succ, List.ofFn_zero, fsum, List.foldr, pow01, Fin.succ_zero_eq_one, Matrix.cons_val_zero, Matrix.cons_val_one, i00, i01, i10, i11]
  generalize 1 / (g 1 - g 0) = d at hd
  have e1 : FV.infSign d = .pinf := FV.infSign_pos hd
  have e2 : FV.infSign (-d) = .ninf := by unfold FV.infSign; rw [if_neg (by linarith), if_neg (by linarith)]
  have hs : ∀ x : ℝ, FV.infSign x = if x = 0 then .nan else if 0 < x then .pinf else .ninf := fun _ => rfl
  have key : ∀ x : ℝ, ((x < 0) = True ∧ (x = 0) = False ∧ (0 < x) = False) ∨ ((x < 0) = False ∧ (x = 0) = True ∧ (0 < x) = False) ∨
      ((x < 0) = False ∧ (x = 0) = False ∧ (0 < x) = True) := by
    intro x
    rcases lt_trichotomy x 0 with h | h | h
    · exact Or.inl ⟨eq_true h, eq_false h.ne, eq_false (not_lt.mpr h.le)⟩
    · exact Or.inr (Or.inl ⟨eq_false (by rw [h]; exact lt_irrefl _), eq_true h, eq_false (by rw [h]; exact lt_irrefl _)⟩)
    · exact Or.inr (Or.inr ⟨eq_false (not_lt.mpr h.le), eq_false h.ne', eq_true h⟩)
  cases t with
  | fin x => simp [FV.isFinite] at ht
  | nan => simp [farValue]
  | pinf =>
    have c0 : (FV.fin 1 * FV.fin 1 + ((FV.pinf - FV.fin (g 0)) * FV.fin (-d) + 0) : FV ℝ) = .ninf := by
      show FV.add (FV.fin (1 * 1)) (FV.add (FV.infSign (-d)) (.fin 0)) = _
      rw [e2]; rfl
    have c1 : (FV.fin 1 * FV.fin 0 + ((FV.pinf - FV.fin (g 0)) * FV.fin d + 0) : FV ℝ) = .pinf := by
      show FV.add (FV.fin (1 * 0)) (FV.add (FV.infSign d) (.fin 0)) = _
      rw [e1]; rfl
    simp only [c0, c1]
    show FV.add (FV.infSign (-p)) (FV.add (FV.infSign q) (.fin 0)) = _
    unfold farValue
    simp only [hs, neg_eq_zero, Left.neg_pos_iff]
    rcases key p with ⟨a1, a2, a3⟩ | ⟨a1, a2, a3⟩ | ⟨a1, a2, a3⟩ <;> rcases key q with ⟨b1, b2, b3⟩ | ⟨b1, b2, b3⟩ | ⟨b1, b2, b3⟩ <;>
      simp only [a1, a2, a3, b1, b2, b3, if_true, if_false, and_true, true_and, and_false, false_and] <;> rfl
  | ninf =>
    have c0 : (FV.fin 1 * FV.fin 1 + ((FV.ninf - FV.fin (g 0)) * FV.fin (-d) + 0) : FV ℝ) = .pinf := by
      show FV.add (FV.fin (1 * 1)) (FV.add (FV.infSign (- -d)) (.fin 0)) = _
      rw [neg_neg, e1]; rfl
    have c1 : (FV.fin 1 * FV.fin 0 + ((FV.ninf - FV.fin (g 0)) * FV.fin d + 0) : FV ℝ) = .ninf := by
      show FV.add (FV.fin (1 * 0)) (FV.add (FV.infSign (-d)) (.fin 0)) = _
      rw [e2]; rfl
    simp only [c0, c1]
    show FV.add (FV.infSign p) (FV.add (FV.infSign (-q)) (.fin 0)) = _
    unfold farValue
    simp only [hs, neg_eq_zero, Left.neg_pos_iff]
    rcases key p with ⟨a1, a2, a3⟩ | ⟨a1, a2, a3⟩ | ⟨a1, a2, a3⟩ <;> rcases key q with ⟨b1, b2, b3⟩ | ⟨b1, b2, b3⟩ | ⟨b1, b2, b3⟩ <;>
      simp only [a1, a2, a3, b1, b2, b3, if_true, if_false, and_true, true_and, and_false, false_and] <;> rfl

/-- The two points used for a target that is not finite: the two smallest for -inf, otherwise the two largest. -/
structure FarSegment {V : Type*} (l : List (ℝ × V)) (x y : ℝ × V) (t : FV ℝ) : Prop where
  left : x ∈ l
  right : y ∈ l
  lt : x.1 < y.1
  neighbours : ∀ z ∈ l, z.1 ≤ x.1 ∨ y.1 ≤ z.1
  low : t = .ninf → ∀ z ∈ l, x.1 ≤ z.1
  high : t ≠ .ninf → ∀ z ∈ l, z.1 ≤ y.1

theorem farSegment_unique {V : Type*} {l : List (ℝ × V)} (hn : (l.map Prod.fst).Nodup) {x y x' y' : ℝ × V} {t : FV ℝ} (h : FarSegment l x y t) (h' : FarSegment l x' y' t) :
    x = x' ∧ y = y' := by
  have right_of : x = x' → y = y' := by
    rintro rfl
    exact eq_of_fst_eq hn h.right h'.right (le_antisymm ((h.neighbours _ h'.right).resolve_left (not_le.mpr h'.lt)) ((h'.neighbours _ h.right).resolve_left (not_le.mpr h.lt)))
  have left_of : y = y' → x = x' := by
    rintro rfl
    exact eq_of_fst_eq hn h.left h'.left (le_antisymm ((h'.neighbours _ h.left).resolve_right (not_le.mpr h.lt)) ((h.neighbours _ h'.left).resolve_right (not_le.mpr h'.lt)))
  by_cases ht : t = .ninf
  · have e := eq_of_fst_eq hn h.left h'.left (le_antisymm (h.low ht _ h'.left) (h'.low ht _ h.left))
    exact ⟨e, right_of e⟩
  · have e := eq_of_fst_eq hn h.right h'.right (le_antisymm (h'.high ht _ h.right) (h.high ht _ h'.right))
    exact ⟨left_of e, e⟩

/-- **C115** A target that is not finite is extrapolated with a warning and gives NaN or an infinity in every entry, never a number: NaN for NaN, and an infinity for an infinity only
if the parameters at the two outermost grid points have opposite signs. -/
theorem C115_not_finite (argsort : List ℝ → List ℕ) (ha : IsArgsort argsort) (delaunay : Grid → Except Err (List (FV ℝ) → Bool)) (delaunay' : Grid → Except Err Unit)
    (planar : Grid → List (List ℕ → FV ℝ) → Callable (List ℕ → FV ℝ)) (m : ℕ) (s : List ℕ) (l : List (ℝ × (List ℕ → ℝ))) (h2 : 2 ≤ l.length) (hn : (l.map Prod.fst).Nodup)
    (e : Estimator (List ℕ → FV ℝ))
    (he : parametrizedInit argsort delaunay (.oneD (l.map Prod.fst)) (.rows (l.map fun p idx => .fin (p.2 idx))) (gridDataInterpolator griddataLine)
        (some (simplexExtrapolator delaunay' planar (m :: s))) = .ok e) (t : FV ℝ) (ht : t.isFinite = false) :
    ∃ r, e.call (.oneD [t]) = ⟨.ok r, true⟩ ∧ (∃ x y, FarSegment l x y t) ∧ ∀ x y, FarSegment l x y t → ∀ idx, r idx = farValue (x.2 idx) (y.2 idx) t := by
  obtain ⟨l', hp, hs, i, x, he', hi, hx⟩ := lineEstimator ha delaunay delaunay' planar (m :: s) l h2 hn
  rw [he] at he'
  cases he'
  have hlen : l'.length = l.length := hp.length_eq
  have hmono : ∀ i j (hi : i < l'.length) (hj : j < l'.length), i < j → l'[i].1 < l'[j].1 := by
    intro i j hi hj hij
    have := List.pairwise_iff_getElem.mp hs i j (by simpa using hi) (by simpa using hj) hij
    simpa using this
  have hmono' : ∀ i j (hi : i < l'.length) (hj : j < l'.length), i ≤ j → l'[i].1 ≤ l'[j].1 := by
    intro i j hi hj hij
    rcases hij.lt_or_eq with h | rfl
    · exact (hmono i j hi hj h).le
    · exact le_rfl
  have hcall := ((dispatch_line hp (by rintro rfl; simp at h2) i (some x) t).2 (by
    cases t with
    | fin y => simp [FV.isFinite] at ht
    | nan => rintro ⟨⟨_, _, h⟩, _⟩; simp [FV.le] at h
    | pinf => rintro ⟨_, _, _, h⟩; simp [FV.le] at h
    | ninf => rintro ⟨⟨_, _, h⟩, _⟩; simp [FV.le] at h)).1 x rfl
  have hmin : (l'.map Prod.fst).min? = some (l'[0]'(by omega)).1 := by
    rw [List.min?_eq_some_iff]
    refine ⟨List.mem_map_of_mem (List.getElem_mem _), ?_⟩
    intro b hb
    obtain ⟨z, hz, rfl⟩ := List.mem_map.mp hb
    obtain ⟨j, hj, rfl⟩ := List.getElem_of_mem hz
    exact hmono' _ _ _ _ (by omega)
  have hbelow : FV.lt t (.fin (l'[0]'(by omega)).1) = decide (t = .ninf) := by
    cases t with
    | fin y => simp [FV.isFinite] at ht
    | nan => rfl
    | pinf => rfl
    | ninf => rfl
  have hfp := stackRows_finite m s l'
  have run : ∀ (k : ℕ) (hk : k + 1 < l'.length), (if t = .ninf then k = 0 else k + 2 = l'.length) →
      ∃ r, x [t] = .ok r ∧ ∀ idx, r idx = farValue (l'[k].2 idx) (l'[k + 1].2 idx) t := by
    intro k hk hcase
    have hseg : (if decide (t = .ninf) then ![(l'.map Prod.fst).getD 0 0, (l'.map Prod.fst).getD 1 0] else
        ![(l'.map Prod.fst).getD ((l'.map Prod.fst).length - 2) 0, (l'.map Prod.fst).getD ((l'.map Prod.fst).length - 1) 0]) = ![l'[k].1, l'[k + 1].1] := by
      by_cases h : t = .ninf
      · rw [if_pos h] at hcase
        subst hcase
        simp [h, List.getD_eq_getElem?_getD, List.getElem?_eq_getElem (show 0 < l'.length by omega), List.getElem?_eq_getElem hk]
      · rw [if_neg h] at hcase
        have e1 : l'.length - 2 = k := by omega
        have e2 : l'.length - 1 = k + 1 := by omega
        simp [h, e1, e2, List.getD_eq_getElem?_getD, List.getElem?_eq_getElem (show k < l'.length by omega), List.getElem?_eq_getElem hk]
    have hinds : (if decide (t = .ninf) then ![0, 1] else ![l'.length - 2, l'.length - 1]) = (![k, k + 1] : Fin 2 → ℕ) := by
      by_cases h : t = .ninf
      · rw [if_pos h] at hcase
        subst hcase
        simp [h]
      · rw [if_neg h] at hcase
        have e1 : l'.length - 2 = k := by omega
        have e2 : l'.length - 1 = k + 1 := by omega
        simp [h, e1, e2]
    have hlt : (![l'[k].1, l'[k + 1].1] : Fin 2 → ℝ) 0 < (![l'[k].1, l'[k + 1].1] : Fin 2 → ℝ) 1 := hmono _ _ _ _ (by omega)
    obtain ⟨c, hc, -⟩ := far_sum _ hlt t ht 0 0
    have hcomb : lineExtrapolate (l'.map Prod.fst) (stackRows (m :: s) (l'.map fun p idx => (FV.fin (p.2 idx) : FV ℝ))) t =
        combineRows c ![k, k + 1] (stackRows (m :: s) (l'.map fun p idx => (FV.fin (p.2 idx) : FV ℝ))) := by
      unfold lineExtrapolate
      rw [asParams_cons hfp.shape_eq, hmin]
      simp only [hfp.shape_eq, List.headD_cons]
      rw [if_neg (by simp; omega)]
      simp only [hbelow]
      rw [hseg, hc, hinds]
    refine ⟨_, by rw [hx, List.headD_cons, hcomb]; unfold combineRows; rw [hfp.shape_eq]; simp only; rw [if_pos (by intro j; fin_cases j <;> simp <;> omega)], fun idx => ?_⟩
    obtain ⟨c', hc', hv⟩ := far_sum _ hlt t ht (l'[k].2 idx) (l'[k + 1].2 idx)
    rw [hc] at hc'
    cases hc'
    rw [← hv]
    congr 1
    simp only [List.ofFn_succ, List.ofFn_zero, Fin.succ_zero_eq_one, Matrix.cons_val_zero, Matrix.cons_val_one, hfp.get_eq, List.headD_cons, List.tail_cons,
      List.getD_eq_getElem?_getD, List.getElem?_eq_getElem (show k < l'.length by omega), List.getElem?_eq_getElem hk, Option.getD_some]
  obtain ⟨k, hk, hcase⟩ : ∃ k, k + 1 < l'.length ∧ if t = .ninf then k = 0 else k + 2 = l'.length := by
    by_cases h : t = .ninf
    · exact ⟨0, by omega, by rw [if_pos h]⟩
    · exact ⟨l'.length - 2, by omega, by rw [if_neg h]; omega⟩
  obtain ⟨r, hr, hv⟩ := run k hk hcase
  have hfar : FarSegment l l'[k] l'[k + 1] t := by
    refine ⟨hp.mem_iff.mp (List.getElem_mem _), hp.mem_iff.mp (List.getElem_mem _), hmono _ _ _ _ (by omega), ?_, ?_, ?_⟩
    · intro z hz
      obtain ⟨j, hj, rfl⟩ := List.getElem_of_mem (hp.mem_iff.mpr hz)
      rcases Nat.lt_or_ge k j with h | h
      · exact Or.inr (hmono' _ _ _ _ h)
      · exact Or.inl (hmono' _ _ _ _ h)
    · intro h z hz
      obtain ⟨j, hj, rfl⟩ := List.getElem_of_mem (hp.mem_iff.mpr hz)
      rw [if_pos h] at hcase
      exact hmono' _ _ _ _ (by omega)
    · intro h z hz
      obtain ⟨j, hj, rfl⟩ := List.getElem_of_mem (hp.mem_iff.mpr hz)
      rw [if_neg h] at hcase
      exact hmono' _ _ _ _ (by omega)
  refine ⟨r, hcall.trans (by rw [hr]), ⟨_, _, hfar⟩, fun x' y' h' idx => ?_⟩
  obtain ⟨rfl, rfl⟩ := farSegment_unique hn hfar h'
  exact hv idx

/-! ## The hypotheses can be met -/

/-- two points in the wrong order: at 3 the line through (1, 10) and (2, 30) gives 50, with a warning -/
example : ∃ e : Estimator (List ℕ → FV ℝ), parametrizedInit stableArgsort (fun _ => .error .valueError) (.oneD [2, 1]) (.rows [fun _ => .fin 30, fun _ => .fin 10])
      (gridDataInterpolator griddataLine) (some (simplexExtrapolator (fun _ => .error .valueError) (fun _ _ _ => .error .valueError) [1])) = .ok e ∧
    ∃ r, e.call (.oneD [.fin 3]) = ⟨.ok r, true⟩ ∧ r [0] = .fin 50 := by
  obtain ⟨e, he, h⟩ := C115_polyline stableArgsort stableArgsort_isArgsort (fun _ => .error .valueError) (fun _ => .error .valueError) (fun _ _ _ => .error .valueError) 1 []
    [(2, fun _ => 30), (1, fun _ => 10)] (by simp) (by simp)
  refine ⟨e, he, ?_⟩
  obtain ⟨r, w, hc, hw, -, hr⟩ := h 3
  have hwt : w = true := hw.mpr (Or.inr (by simp; norm_num))
  refine ⟨r, by rw [hc, hwt], ?_⟩
  rw [hr (1, fun _ => 10) (2, fun _ => 30) ⟨by simp, by simp, by norm_num, by simp, Or.inl (by norm_num), Or.inr (by simp)⟩ [0]]
  norm_num [lineThrough, entry]

example : farValue (-1) 1 (.pinf) = .pinf ∧ farValue 1 2 .pinf = .nan ∧ (FV.pinf : FV ℝ).isFinite = false := by
  refine ⟨?_, ?_, rfl⟩
  · unfold farValue; rw [if_pos (by norm_num)]
  · unfold farValue; rw [if_neg (by norm_num), if_neg (by norm_num)]

end Pyirf.Interpolation
