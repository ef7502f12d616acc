import Verif.Interpolation.ExtrapModel
import Verif.Interpolation.CoefProps
import Verif.Interpolation.FacetProps

/-! # Property C51: nearest simplex extrapolation -/
set_option linter.unusedSectionVars false
set_option linter.unusedSimpArgs false

namespace Pyirf.Interpolation
open Pyirf Pyirf.Np

/-! ## Lemmas -/

theorem getD_of_lt {l : List ℝ} {i : ℕ} (h : i < l.length) : l.getD i 0 = l[i] := by
  rw [List.getD_eq_getElem?_getD, List.getElem?_eq_getElem h]; rfl

theorem zero_eq_fin : (0 : FV ℝ) = .fin 0 := rfl

theorem fsum_fin (l : List ℝ) : fsum (l.map .fin) = .fin l.sum := by
  unfold fsum
  induction l with
  | nil => rfl
  | cons a l ih => simp only [List.map_cons, List.foldr_cons, List.sum_cons, ih]; rfl

theorem asParams_cons {α : Type*} {a : ND α} {n m : ℕ} {s : List ℕ} (h : a.shape = n :: m :: s) : asParams a = a := by
  unfold asParams; rw [h]

/-- Parameters with at least two axes and finite entries. -/
structure FiniteParams (params : ND (FV ℝ)) (n m : ℕ) (s : List ℕ) (p : List ℕ → ℝ) : Prop where
  /-- one entry per grid point, and at least one more axis -/
  shape_eq : params.shape = n :: m :: s
  /-- the entries -/
  get_eq : ∀ idx, params.get idx = .fin (p idx)

theorem combineRows_finite {k : ℕ} {params : ND (FV ℝ)} {n m : ℕ} {s : List ℕ} {p : List ℕ → ℝ} (hp : FiniteParams params n m s p) (c : Fin k → ℝ)
    (inds : Fin k → ℕ) (hi : ∀ i, inds i < n) :
    combineRows (fun i => .fin (c i)) inds params = .ok ⟨1 :: m :: s, fun idx => .fin (∑ i, c i * p (inds i :: idx.tail))⟩ := by
  unfold combineRows
  rw [hp.shape_eq]
  simp only []
  rw [if_pos hi]
  congr 2
  ext1 idx
  simp only [hp.get_eq, FV.fin_mul_fin]
  have : (List.ofFn fun i : Fin k => (FV.fin (c i * p (inds i :: idx.tail)) : FV ℝ)) = (List.ofFn fun i => c i * p (inds i :: idx.tail)).map .fin := by
    rw [List.map_ofFn]; rfl
  rw [this, fsum_fin, List.sum_ofFn]

/-! ## C51 -/

/-- **C51** One dimension, grid points sorted in ascending order, at least two: below the first point the result is the straight line through the first
two points, else the straight line through the last two points, for every entry of the parameters. -/
theorem C51_line (grid : List ℝ) (hs : grid.Pairwise (· < ·)) (hn : 2 ≤ grid.length) (params : ND (FV ℝ)) {m : ℕ} {s : List ℕ} {p : List ℕ → ℝ}
    (hp : FiniteParams params grid.length m s p) (t : ℝ) (i j : ℕ) (hi : i < grid.length) (hj : j < grid.length)
    (hij : (t < grid[0] ∧ i = 0 ∧ j = 1) ∨ (grid[0] ≤ t ∧ i = grid.length - 2 ∧ j = grid.length - 1)) :
    ∃ r, simplexExtrapolate1D grid params t = .ok r ∧ r.shape = 1 :: m :: s ∧
      ∀ idx, r.get (0 :: idx) = .fin (p (i :: idx) + (t - grid[i]) / (grid[j] - grid[i]) * (p (j :: idx) - p (i :: idx))) := by
  have hmin : grid.min? = some grid[0] := by
    rw [List.min?_eq_some_iff]
    refine ⟨List.getElem_mem _, ?_⟩
    intro b hb
    obtain ⟨k, hk, rfl⟩ := List.mem_iff_getElem.mp hb
    rcases Nat.eq_zero_or_pos k with h0 | h0
    · subst h0; exact le_rfl
    · exact (List.pairwise_iff_getElem.mp hs 0 k (by omega) hk h0).le
  have hlt : grid[i] < grid[j] := by
    apply List.pairwise_iff_getElem.mp hs
    rcases hij with ⟨-, rfl, rfl⟩ | ⟨-, rfl, rfl⟩ <;> omega
  have hseg : (if decide (t < grid[0]) then ![grid.getD 0 0, grid.getD 1 0] else ![grid.getD (grid.length - 2) 0, grid.getD (grid.length - 1) 0] : Fin 2 → ℝ) = ![grid[i], grid[j]] := by
    rcases hij with ⟨h, rfl, rfl⟩ | ⟨h, rfl, rfl⟩
    · rw [if_pos (by simpa using h), getD_of_lt hi, getD_of_lt hj]
    · rw [if_neg (by simpa using h), getD_of_lt hi, getD_of_lt hj]
  have hinds : (if decide (t < grid[0]) then ![0, 1] else ![params.shape.headD 0 - 2, params.shape.headD 0 - 1] : Fin 2 → ℕ) = ![i, j] := by
    rw [hp.shape_eq]
    rcases hij with ⟨h, rfl, rfl⟩ | ⟨h, rfl, rfl⟩
    · rw [if_pos (by simpa using h)]
    · rw [if_neg (by simpa using h)]; rfl
  unfold simplexExtrapolate1D
  rw [asParams_cons hp.shape_eq, hmin]
  simp only []
  rw [if_neg (by rw [hp.shape_eq]; simp; omega), hseg, hinds, linesegment_eq _ _ (by simpa using hlt.ne)]
  simp only []
  rw [combineRows_finite hp _ _ (by intro x; fin_cases x; exacts [hi, hj])]
  refine ⟨_, rfl, rfl, ?_⟩
  intro idx
  simp only [Fin.sum_univ_two, Matrix.cons_val_zero, Matrix.cons_val_one, List.tail_cons]
  congr 1; ring

/-- **C51** In one dimension the extrapolation is exact for parameters that are an affine function of the grid point, for every target. -/
theorem C51_affine_1d (grid : List ℝ) (hs : grid.Pairwise (· < ·)) (hn : 2 ≤ grid.length) (params : ND (FV ℝ)) {m : ℕ} {s : List ℕ} {p : List ℕ → ℝ}
    (hp : FiniteParams params grid.length m s p) (a b : List ℕ → ℝ) (hab : ∀ (k : ℕ) (hk : k < grid.length) (idx), p (k :: idx) = a idx * grid[k] + b idx) (t : ℝ) :
    ∃ r, simplexExtrapolate1D grid params t = .ok r ∧ r.shape = 1 :: m :: s ∧ ∀ idx, r.get (0 :: idx) = .fin (a idx * t + b idx) := by
  have main : ∀ (i j : ℕ) (hi : i < grid.length) (hj : j < grid.length) (hlt : i < j)
    (hij : (t < grid[0] ∧ i = 0 ∧ j = 1) ∨ (grid[0] ≤ t ∧ i = grid.length - 2 ∧ j = grid.length - 1)),
    ∃ r, simplexExtrapolate1D grid params t = .ok r ∧ r.shape = 1 :: m :: s ∧ ∀ idx, r.get (0 :: idx) = .fin (a idx * t + b idx) := by
    intro i j hi hj hlt hij
    obtain ⟨r, h1, h2, h3⟩ := C51_line grid hs hn params hp t i j hi hj hij
    refine ⟨r, h1, h2, ?_⟩
    intro idx
    rw [h3, hab i hi, hab j hj]
    have hd : grid[j] - grid[i] ≠ 0 := by
      have := List.pairwise_iff_getElem.mp hs i j hi hj hlt
      linarith
    congr 1; field_simp; ring
  rcases lt_or_ge t grid[0] with h | h
  · exact main 0 1 (by omega) (by omega) (by omega) (Or.inl ⟨h, rfl, rfl⟩)
  · exact main (grid.length - 2) (grid.length - 1) (by omega) (by omega) (by omega) (Or.inr ⟨h, rfl, rfl⟩)

/-- **C51** Parameters with one axis are treated as parameters with a second axis of length one. -/
theorem C51_one_axis (grid : List ℝ) (params : ND (FV ℝ)) (n : ℕ) (h : params.shape = [n]) (t : ℝ) (argsort : List (FV ℝ × FV ℝ) → ℕ) (T : Triangulation) (t2 : Pt 0) :
    simplexExtrapolate1D grid params t = simplexExtrapolate1D grid ⟨[n, 1], fun idx => params.get [idx.headD 0]⟩ t ∧
    nearestSimplexExtrapolate argsort T params t2 = nearestSimplexExtrapolate argsort T ⟨[n, 1], fun idx => params.get [idx.headD 0]⟩ t2 := by
  have h1 : asParams params = ⟨[n, 1], fun idx => params.get [idx.headD 0]⟩ := by unfold asParams; rw [h]
  have h2 : asParams (⟨[n, 1], fun idx => params.get [idx.headD 0]⟩ : ND (FV ℝ)) = ⟨[n, 1], fun idx => params.get [idx.headD 0]⟩ := rfl
  constructor
  · unfold simplexExtrapolate1D; rw [h1, h2]
  · unfold nearestSimplexExtrapolate; rw [h1, h2]

/-- The area of a triangle given by three indices is not zero. -/
def NonDegenerate (T : Triangulation) (s : Fin 3 → Fin T.points.length) : Prop := signedArea2 (fun i => toPair T.points[s i]) ≠ 0

/-- the 2D extrapolation from a given simplex -/
theorem simplexExtrapolate2D_eq (T : Triangulation) (params : ND (FV ℝ)) {m : ℕ} {s : List ℕ} {p : List ℕ → ℝ}
    (hp : FiniteParams params T.points.length m s p) (t : Pt 0) (ind : ℕ) (hind : ind < T.simplices.length) (hnd : NonDegenerate T T.simplices[ind]) :
    ∃ c : Fin 3 → ℝ, ∑ i, c i = 1 ∧ (∀ x, ∑ i, c i * T.points[T.simplices[ind] i] x = t x) ∧
      (∀ c' : Fin 3 → ℝ, ∑ i, c' i = 1 → (∀ x, ∑ i, c' i * T.points[T.simplices[ind] i] x = t x) → c' = c) ∧
      simplexExtrapolate2D T params t ind = .ok ⟨1 :: m :: s, fun idx => .fin (∑ i, c i * p ((T.simplices[ind] i).val :: idx.tail))⟩ := by
  obtain ⟨c, h1, h2, h3, h4⟩ := barycentric_eq _ (toPair t) hnd
  have conv : ∀ c : Fin 3 → ℝ, ∑ i, c i • toPair T.points[T.simplices[ind] i] = toPair t ↔ ∀ x, ∑ i, c i * T.points[T.simplices[ind] i] x = t x := by
    intro c
    constructor
    · intro h x
      have e1 := congrArg Prod.fst h
      have e2 := congrArg Prod.snd h
      simp only [Prod.fst_sum, Prod.snd_sum, Prod.smul_fst, Prod.smul_snd, smul_eq_mul, toPair] at e1 e2
      fin_cases x
      · exact e1
      · exact e2
    · intro h
      apply Prod.ext
      · simpa [Prod.fst_sum, toPair] using h 0
      · simpa [Prod.snd_sum, toPair] using h 1
  refine ⟨c, h2, (conv c).mp h3, fun c' e1 e2 => h4 c' e1 ((conv c').mpr e2), ?_⟩
  unfold simplexExtrapolate2D
  rw [List.getElem?_eq_getElem hind]
  simp only []
  rw [h1, combineRows_finite hp]
  intro i; exact (T.simplices[ind] i).isLt

/-- **C51** Two dimensions, with nondegenerate simplices: whatever simplex is chosen, the result is the affine function through its three vertices, so it is exact for
parameters that are an affine function of the grid point. -/
theorem C51_affine_2d (argsort : List (FV ℝ × FV ℝ) → ℕ) (T : Triangulation) (hnd : ∀ s ∈ T.simplices, NonDegenerate T s) (params : ND (FV ℝ)) {m : ℕ} {s : List ℕ}
    {p : List ℕ → ℝ} (hp : FiniteParams params T.points.length m s p) (a b c : List ℕ → ℝ)
    (habc : ∀ (k : ℕ) (hk : k < T.points.length) (idx), p (k :: idx) = a idx * T.points[k] 0 + b idx * T.points[k] 1 + c idx) (t : Pt 0)
    (ind : ℕ) (hind : ind < T.simplices.length) (hchosen : findNearestSimplex argsort T t = .ok ind) :
    ∃ r, nearestSimplexExtrapolate argsort T params t = .ok r ∧ r.shape = 1 :: m :: s ∧ ∀ idx, r.get (0 :: idx) = .fin (a idx * t 0 + b idx * t 1 + c idx) := by
  obtain ⟨w, h1, h2, -, h4⟩ := simplexExtrapolate2D_eq T params hp t ind hind (hnd _ (List.getElem_mem hind))
  have hr : nearestSimplexExtrapolate argsort T params t = .ok ⟨1 :: m :: s, fun idx => .fin (∑ i, w i * p ((T.simplices[ind] i).val :: idx.tail))⟩ := by
    unfold nearestSimplexExtrapolate
    rw [hchosen, asParams_cons hp.shape_eq]
    exact h4
  refine ⟨_, hr, rfl, ?_⟩
  · intro idx
    simp only [List.tail_cons]
    congr 1
    rw [← h2 0, ← h2 1, show c idx = c idx * ∑ i, w i by rw [h1, mul_one], Finset.mul_sum, Finset.mul_sum, Finset.mul_sum, ← Finset.sum_add_distrib, ← Finset.sum_add_distrib]
    apply Finset.sum_congr rfl
    intro i _
    rw [habc _ (T.simplices[ind] i).isLt]
    simp only [Fin.getElem_fin]
    ring

/-- **C51** At a vertex of the chosen simplex the parameters of that vertex are returned. -/
theorem C51_vertex (argsort : List (FV ℝ × FV ℝ) → ℕ) (T : Triangulation) (hnd : ∀ s ∈ T.simplices, NonDegenerate T s) (params : ND (FV ℝ)) {m : ℕ} {s : List ℕ}
    {p : List ℕ → ℝ} (hp : FiniteParams params T.points.length m s p) (t : Pt 0) (ind : ℕ) (hind : ind < T.simplices.length)
    (hchosen : findNearestSimplex argsort T t = .ok ind) (v : Fin 3) (hv : T.points[T.simplices[ind] v] = t) :
    ∃ r, nearestSimplexExtrapolate argsort T params t = .ok r ∧ r.shape = 1 :: m :: s ∧ ∀ idx, r.get (0 :: idx) = .fin (p ((T.simplices[ind] v).val :: idx)) := by
  obtain ⟨w, h1, h2, h3, h4⟩ := simplexExtrapolate2D_eq T params hp t ind hind (hnd _ (List.getElem_mem hind))
  have hr : nearestSimplexExtrapolate argsort T params t = .ok ⟨1 :: m :: s, fun idx => .fin (∑ i, w i * p ((T.simplices[ind] i).val :: idx.tail))⟩ := by
    unfold nearestSimplexExtrapolate
    rw [hchosen, asParams_cons hp.shape_eq]
    exact h4
  refine ⟨_, hr, rfl, ?_⟩
  · intro idx
    have : w = Pi.single v 1 := by
      symm; apply h3
      · simp
      · intro x; simp [Pi.single_apply, ite_mul, ← hv]
    rw [this]
    simp [Pi.single_apply, ite_mul]

/-! ## The hypotheses are satisfiable -/

example : ([1, 2, 4] : List ℝ).Pairwise (· < ·) ∧ 2 ≤ ([1, 2, 4] : List ℝ).length ∧ FiniteParams ⟨[3, 2], fun _ => .fin 7⟩ ([1, 2, 4] : List ℝ).length 2 [] (fun _ => 7) :=
  ⟨by simp; norm_num, by simp, ⟨rfl, fun _ => rfl⟩⟩

theorem squareTri_nondegenerate : ∀ s ∈ squareTri.simplices, NonDegenerate squareTri s := by
  intro s hs
  have h : squareTri.simplices = [![⟨0, by simp [squareTri]⟩, ⟨1, by simp [squareTri]⟩, ⟨2, by simp [squareTri]⟩],
    ![⟨3, by simp [squareTri]⟩, ⟨1, by simp [squareTri]⟩, ⟨2, by simp [squareTri]⟩]] := rfl
  rw [h] at hs
  simp only [List.mem_cons, List.not_mem_nil, or_false] at hs
  rcases hs with rfl | rfl
  · have e : (fun i => toPair squareTri.points[(![⟨0, by simp [squareTri]⟩, ⟨1, by simp [squareTri]⟩, ⟨2, by simp [squareTri]⟩] : Fin 3 → Fin squareTri.points.length) i]) =
      ![((0:ℝ), (0:ℝ)), (1, 0), (0, 1)] := by funext i; fin_cases i <;> rfl
    unfold NonDegenerate; rw [e]; simp [signedArea2]
  · have e : (fun i => toPair squareTri.points[(![⟨3, by simp [squareTri]⟩, ⟨1, by simp [squareTri]⟩, ⟨2, by simp [squareTri]⟩] : Fin 3 → Fin squareTri.points.length) i]) =
      ![((1:ℝ), (1:ℝ)), (1, 0), (0, 1)] := by funext i; fin_cases i <;> rfl
    unfold NonDegenerate; rw [e]; simp [signedArea2]

example : ∃ argsort ind, ind < squareTri.simplices.length ∧ findNearestSimplex argsort squareTri ![2, 2] = .ok ind := by
  obtain ⟨argsort, hs⟩ := exists_argsort
  obtain ⟨i, k, hi, hk, -, h, -⟩ := C54_nearest_simplex argsort hs squareTri squareTri_injective (by simp [Triangulation.hullPoints, squareTri]) squareTri_hull
    ![2, 2] squareTri_target
  exact ⟨argsort, i, by simpa [Triangulation.simplexPoints] using hi, h⟩

end Pyirf.Interpolation
