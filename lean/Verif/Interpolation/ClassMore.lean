import Verif.Interpolation.ClassProps
import Verif.Interpolation.NearestProps
import Verif.Interpolation.MorphProps

/-!
# C116, C117: estimators with nearest neighbor search and with moment morphing, end to end
-/
set_option linter.unusedSectionVars false
set_option linter.unusedSimpArgs false

namespace Pyirf.Interpolation
open Pyirf Pyirf.Np

/-! ## C116 -/

theorem argminV_fin (l : List ℝ) : argminV (l.map .fin) = argminR l := by
  unfold argminV argminR
  have h1 : (l.map FV.fin = []) ↔ l = [] := List.map_eq_nil_iff
  by_cases h : l = []
  · rw [if_pos (h1.mpr h), if_pos h]
  · rw [if_neg (fun hc => h (h1.mp hc)), if_neg h]
    have h2 : (l.map FV.fin).any FV.isNan = false := by simp [List.any_eq_false, FV.isNan]
    rw [if_neg (by rw [h2]; simp)]
    congr 1
    rw [List.findIdx_map]
    congr 1
    funext x
    simp only [Function.comp_apply, List.all_map]
    rfl

theorem distTo_fin (p : ℕ) (g t : List ℝ) : distTo p g (t.map .fin) = .fin (pDist p g t) := by
  unfold distTo
  have h1 : (t.map FV.fin).any FV.isNan = false := by simp [List.any_eq_false, FV.isNan]
  have h2 : (t.map FV.fin).all FV.isFinite = true := by simp [List.all_eq_true, FV.isFinite]
  rw [if_neg (by rw [h1]; simp), if_pos h2, List.map_map]
  congr 2
  exact (List.map_congr_left fun x _ => rfl).trans (List.map_id _)

/-- The searcher of this order: what it returns. -/
theorem nearest_built {ρ : Type*} (p : ℕ) (hp : 0 < p) : ∃ mk : Grid → List ρ → Except Err (Callable ρ), (nearestSearcher (.num (.fin p)) : ClsArg ρ ρ) = .cls mk ∧
    ∀ (grid : Grid) (rows : List ρ), grid ≠ [] → rows.length = grid.length → ∃ f, mk grid rows = .ok f ∧
      (∀ t : List ℝ, ∃ (i : ℕ) (hi : i < grid.length) (hr : i < rows.length), f (t.map .fin) = .ok rows[i] ∧ (∀ (j : ℕ) (hj : j < grid.length), pDist p grid[i] t ≤ pDist p grid[j] t) ∧
        ∀ (j : ℕ) (hj : j < i), pDist p grid[i] t < pDist p (grid[j]'(hj.trans hi)) t) ∧
      ∀ t : List (FV ℝ), t.all FV.isFinite = false → ∃ hr : 0 < rows.length, f t = .ok rows[0] := by
  refine ⟨_, rfl, fun grid rows hg hrows => ?_⟩
  have hpos : 0 < grid.length := List.length_pos_iff.mpr hg
  have hinit : nearestClassInit (gridShape grid) (.num (.fin p)) = .ok (grid.length, (grid.headD []).length, p) :=
    (C114_options (.ok ()) _ _ _ (Or.inr ⟨[], rfl⟩) _).2.2.1 p hp rfl
  refine ⟨_, by simp only [hinit]; rfl, fun t => ?_, fun t ht => ?_⟩
  · obtain ⟨i, hi, e1, e2, e3⟩ := argminR_spec (l := grid.map fun g => pDist p g t) (by simpa using hg)
    have hi' : i < grid.length := by simpa using hi
    refine ⟨i, hi', by omega, ?_, ?_, ?_⟩
    · have : (grid.map fun g => distTo p g (t.map .fin)) = (grid.map fun g => pDist p g t).map .fin := by
        rw [List.map_map]; exact List.map_congr_left fun g _ => distTo_fin p g t
      simp only [this, argminV_fin, e1, List.getElem?_eq_getElem (show i < rows.length by omega)]
    · intro j hj
      have := e2 j (by simpa using hj)
      simpa using this
    · intro j hj
      have := e3 j hj
      simpa using this
  · refine ⟨by omega, ?_⟩
    have hconst : ∀ g, distTo p g t = if t.any FV.isNan then .nan else .pinf := by
      intro g; unfold distTo; rw [ht]; simp
    obtain ⟨g0, gs, rfl⟩ := List.exists_cons_of_ne_nil hg
    obtain ⟨r0, rs, rfl⟩ := List.exists_cons_of_length_pos (show 0 < rows.length by omega)
    have : argminV ((g0 :: gs).map fun g => distTo p g t) = .ok 0 := by
      unfold argminV
      rw [if_neg (by simp)]
      simp only [hconst]
      by_cases hn : t.any FV.isNan = true
      · simp [hn, FV.isNan, List.findIdx_cons]
      · simp only [Bool.not_eq_true] at hn
        simp only [hn, Bool.false_eq_true, if_false]
        rw [if_neg (by simp [FV.isNan])]
        simp [List.findIdx_cons, FV.le]
    simp only [this]
    rfl

theorem pDist_line {p : ℕ} (hp : 0 < p) (a t : ℝ) : pDist p [a] [t] = |a - t| := by
  unfold pDist
  have hne : (p : ℝ) ≠ 0 := by exact_mod_cast hp.ne'
  simp only [List.zipWith_cons_cons, List.zipWith_nil_left, List.sum_cons, List.sum_nil, add_zero]
  rw [← Real.rpow_natCast, ← Real.rpow_mul (abs_nonneg _), mul_one_div_cancel hne, Real.rpow_one]

/-- **C116** A one-dimensional parametrized estimator whose interpolator and extrapolator are nearest neighbor searchers (of any order): for different grid points in any order every
finite target gets the unchanged parameters of a nearest grid point, the smaller one of two, with a warning exactly outside the range of the grid. -/
theorem C116_nearest_1d {ρ : Type*} (argsort : List ℝ → List ℕ) (ha : IsArgsort argsort) (delaunay : Grid → Except Err (List (FV ℝ) → Bool)) (p p' : ℕ) (hp : 0 < p) (hp' : 0 < p')
    (l : List (ℝ × ρ)) (h2 : 2 ≤ l.length) (hn : (l.map Prod.fst).Nodup) :
    ∃ e, parametrizedInit argsort delaunay (.oneD (l.map Prod.fst)) (.rows (l.map Prod.snd)) (nearestSearcher (.num (.fin p))) (some (nearestSearcher (.num (.fin p')))) = .ok e ∧
      (∀ t : ℝ, ∃ x ∈ l, ∃ w, e.call (.oneD [.fin t]) = ⟨.ok x.2, w⟩ ∧ (w = true ↔ (∀ q ∈ l, t < q.1) ∨ ∀ q ∈ l, q.1 < t) ∧
        ∀ y ∈ l, |x.1 - t| < |y.1 - t| ∨ (|x.1 - t| = |y.1 - t| ∧ x.1 ≤ y.1)) ∧
      ∀ t : FV ℝ, t.isFinite = false → ∃ x ∈ l, e.call (.oneD [t]) = ⟨.ok x.2, true⟩ ∧ ∀ y ∈ l, x.1 ≤ y.1 := by
  obtain ⟨l', hperm, hs, hsort⟩ := sortRows_line (fun v : ρ => v) argsort ha l hn
  have hlen : l'.length = l.length := hperm.length_eq
  obtain ⟨mk, hmk, hk⟩ := nearest_built (ρ := ρ) p hp
  obtain ⟨mk', hmk', hk'⟩ := nearest_built (ρ := ρ) p' hp'
  set grid : Grid := (l'.map Prod.fst).map fun x => [x] with hgrid
  have hgne : grid ≠ [] := by intro h; have := congrArg List.length h; simp [hgrid] at this; rw [this] at hlen; simp at hlen; omega
  obtain ⟨f, hf, f1, f2⟩ := hk grid (l'.map fun q => q.2) hgne (by simp [hgrid])
  obtain ⟨f', hf', f1', f2'⟩ := hk' grid (l'.map fun q => q.2) hgne (by simp [hgrid])
  have hmono : ∀ i j (hi : i < l'.length) (hj : j < l'.length), i < j → l'[i].1 < l'[j].1 := by
    intro i j hi hj hij
    have := List.pairwise_iff_getElem.mp hs i j (by simpa using hi) (by simpa using hj) hij
    simpa using this
  refine ⟨⟨1, grid, fun _ => false, f, some f'⟩, ?_, ?_, ?_⟩
  · have e1 : l.map Prod.snd = l.map fun q => q.2 := rfl
    rw [parametrizedInit_1d argsort delaunay _ (by simpa using h2) _ (by simp), e1, hsort, hmk, hmk']
    simp only [buildEstimator, ← hgrid, hf, hf']
  · intro t
    have hdisp := dispatch_line hperm (by rintro rfl; simp at h2) f (some f') (.fin t)
    simp only [FV.le_fin, decide_eq_true_eq] at hdisp
    have val : ∀ (P : ℕ) (hP : 0 < P) (g : Callable ρ), (∀ t : List ℝ, ∃ (i : ℕ) (hi : i < grid.length) (hr : i < (l'.map fun q => q.2).length), g (t.map .fin) = .ok (l'.map fun q => q.2)[i] ∧
        (∀ (j : ℕ) (hj : j < grid.length), pDist P grid[i] t ≤ pDist P grid[j] t) ∧ ∀ (j : ℕ) (hj : j < i), pDist P grid[i] t < pDist P (grid[j]'(hj.trans hi)) t) →
        ∃ x ∈ l, g [.fin t] = .ok x.2 ∧ ∀ y ∈ l, |x.1 - t| < |y.1 - t| ∨ (|x.1 - t| = |y.1 - t| ∧ x.1 ≤ y.1) := by
      intro P hP g hg
      obtain ⟨i, hi, hr, v, hle, hlt⟩ := hg [t]
      have hi' : i < l'.length := by simpa [hgrid] using hi
      have hgi : ∀ j (hj : j < grid.length) (hj' : j < l'.length), pDist P grid[j] [t] = |l'[j].1 - t| := by
        intro j hj hj'
        have : grid[j] = [l'[j].1] := by simp [hgrid]
        rw [this, pDist_line hP]
      refine ⟨l'[i], hperm.mem_iff.mp (List.getElem_mem _), by simpa using v, fun y hy => ?_⟩
      obtain ⟨j, hj, rfl⟩ := List.getElem_of_mem (hperm.mem_iff.mpr hy)
      have hjg : j < grid.length := by simpa [hgrid] using hj
      have hle' := hle j hjg
      rw [hgi i hi hi', hgi j hjg hj] at hle'
      rcases Nat.lt_or_ge j i with hji | hji
      · have hlt' := hlt j hji
        rw [hgi i hi hi', hgi j hjg hj] at hlt'
        exact Or.inl hlt'
      · rcases hle'.lt_or_eq with h | h
        · exact Or.inl h
        · refine Or.inr ⟨h, ?_⟩
          rcases hji.lt_or_eq with h' | h'
          · exact (hmono _ _ _ _ h').le
          · subst h'; exact le_rfl
    by_cases hin : (∃ q ∈ l, q.1 ≤ t) ∧ ∃ q ∈ l, t ≤ q.1
    · obtain ⟨x, hx, hv, hb⟩ := val p hp f f1
      refine ⟨x, hx, false, (hdisp.1 hin).trans (by rw [hv]), iff_of_false (by simp) ?_, hb⟩
      obtain ⟨⟨q, hq, h3⟩, q', hq', h4⟩ := hin
      rintro (h | h)
      · exact absurd (h q hq) (not_lt.mpr h3)
      · exact absurd (h q' hq') (not_lt.mpr h4)
    · obtain ⟨x, hx, hv, hb⟩ := val p' hp' f' f1'
      refine ⟨x, hx, true, ((hdisp.2 hin).1 f' rfl).trans (by rw [hv]), iff_of_true rfl ?_, hb⟩
      rw [not_and_or] at hin
      push Not at hin
      exact hin
  · intro t ht
    have hcall := ((dispatch_line hperm (by rintro rfl; simp at h2) f (some f') t).2 (by
      cases t with
      | fin y => simp [FV.isFinite] at ht
      | nan => rintro ⟨⟨_, _, h⟩, _⟩; simp [FV.le] at h
      | pinf => rintro ⟨_, _, _, h⟩; simp [FV.le] at h
      | ninf => rintro ⟨⟨_, _, h⟩, _⟩; simp [FV.le] at h)).1 f' rfl
    obtain ⟨h0, hv⟩ := f2' [t] (by simp [ht])
    have h0' : 0 < l'.length := by omega
    refine ⟨l'[0], hperm.mem_iff.mp (List.getElem_mem _), hcall.trans (by rw [hv]; simp), fun y hy => ?_⟩
    obtain ⟨j, hj, rfl⟩ := List.getElem_of_mem (hperm.mem_iff.mpr hy)
    rcases Nat.eq_zero_or_pos j with rfl | h
    · exact le_rfl
    · exact (hmono _ _ _ _ h).le

/-- **C116** In two or more dimensions: inside and outside the hull every finite target gets the parameters of the first of the nearest grid points (in the order given), with a warning exactly
where the triangulation finds no simplex. This needs no dimension limit, in contrast to the simplex extrapolators (C114). -/
theorem C116_nearest_nd {ρ : Type*} (argsort : List ℝ → List ℕ) (delaunay : Grid → Except Err (List (FV ℝ) → Bool)) (p : ℕ) (hp : 0 < p) (d : ℕ) (hd : 2 ≤ d)
    (l : List (List ℝ × ρ)) (h2 : d < l.length) (hull : List (FV ℝ) → Bool) (hdel : delaunay (l.map Prod.fst) = .ok hull) :
    ∃ e, parametrizedInit argsort delaunay (.twoD d (l.map Prod.fst)) (.rows (l.map Prod.snd)) (nearestSearcher (.num (.fin p))) (some (nearestSearcher (.num (.fin p)))) = .ok e ∧
      ∀ t : List ℝ, t.length = d → ∃ (i : ℕ) (hi : i < l.length), e.call (.oneD (t.map .fin)) = ⟨.ok l[i].2, !hull (t.map .fin)⟩ ∧
        (∀ y ∈ l, pDist p l[i].1 t ≤ pDist p y.1 t) ∧ ∀ (j : ℕ) (hj : j < i), pDist p l[i].1 t < pDist p l[j].1 t := by
  obtain ⟨mk, hmk, hk⟩ := nearest_built (ρ := ρ) p hp
  have hne : l ≠ [] := by rintro rfl; simp at h2
  obtain ⟨f, hf, f1, -⟩ := hk (l.map Prod.fst) (l.map Prod.snd) (by simpa using hne) (by simp)
  refine ⟨⟨d, l.map Prod.fst, hull, f, some f⟩, ?_, ?_⟩
  · unfold parametrizedInit baseInit
    rw [checkGrid_twoD, if_neg (by simp; omega)]
    simp only [if_pos (show 1 < d by omega), hdel]
    simp only [if_neg (show ¬ ((l.map Prod.fst).length ≠ (l.map Prod.snd).length) by simp), sortRows, if_neg (show ¬ d = 1 by omega), hmk, buildEstimator, hf]
  · intro t ht
    obtain ⟨i, hi, hr, v, hle, hlt⟩ := f1 t
    have hi' : i < l.length := by simpa using hi
    have hdisp := C60_dispatch_nd (⟨d, l.map Prod.fst, hull, f, some f⟩ : Estimator ρ) hd (.oneD (t.map .fin)) (t.map .fin) (((C60_target d _).1 _).mpr (Or.inl ⟨rfl, by simpa using ht⟩))
    refine ⟨i, hi', ?_, ?_, ?_⟩
    · by_cases h : hull (t.map .fin) = true
      · exact (hdisp.1 h).trans (by show (⟨f (t.map .fin), false⟩ : Outcome ρ) = _; rw [v, h]; simp)
      · have h' : hull (t.map .fin) = false := by simpa using h
        exact ((hdisp.2 h').1 f rfl).trans (by show (⟨f (t.map .fin), true⟩ : Outcome ρ) = _; rw [v, h']; simp)
    · intro y hy
      obtain ⟨j, hj, rfl⟩ := List.getElem_of_mem hy
      have := hle j (by simpa using hj)
      rw [List.getElem_map, List.getElem_map] at this
      exact this
    · intro j hj
      have := hlt j hj
      rw [List.getElem_map, List.getElem_map] at this
      exact this

/-! ## C117 -/

/-- `x` and `y` are the neighbors of `t` in these grid points: the largest one that is not above `t`, and the smallest one above `t`. -/
def Enclosing {V : Type*} (l : List (ℝ × V)) (x y : ℝ × V) (t : ℝ) : Prop :=
  x ∈ l ∧ y ∈ l ∧ x.1 ≤ t ∧ t < y.1 ∧ ∀ q ∈ l, q.1 ≤ x.1 ∨ y.1 ≤ q.1

theorem discreteInit_1d {ρ β : Type*} (argsort : List ℝ → List ℕ) (delaunay : Grid → Except Err (List (FV ℝ) → Bool)) (xs : List ℝ) (hx : 2 ≤ xs.length) (rows : List ρ)
    (hl : rows.length = xs.length) (nbins : ℕ) (edges : List ℝ) (he : edges.length = nbins + 1) (interp : List ℝ → ClsArg ρ β) (extrap : Option (List ℝ → ClsArg ρ β)) :
    discreteInit argsort delaunay (.oneD xs) (.rows edges) (.rows rows) nbins interp extrap =
      buildEstimator 1 (fun _ => false) (sortRows argsort 1 (xs.map fun x => [x]) rows).1 (sortRows argsort 1 (xs.map fun x => [x]) rows).2 (interp edges) (extrap.map (· edges)) := by
  unfold discreteInit baseInit
  rw [checkGrid_oneD, if_neg (by omega)]
  simp only [lt_self_iff_false, if_false]
  rw [if_neg (by simp [hl]), if_neg (by rw [he]; push_cast; omega)]

/-- **C117** An estimator of histograms on a one-dimensional grid that interpolates with moment morphing and has no extrapolator, for different grid points in any order and nonnegative
templates. Outside the grid it raises ValueError and at the largest grid point IndexError; everywhere else it returns, without a warning, densities (or zeros) made of the templates of the two
neighboring grid points: the moment morph formula with the linear weights, divided by its integral, and exactly the template itself at its grid point if it is normalized. -/
theorem C117_moment_morph_1d {n : ℕ} {C : Type*} {norm : Normalization} {edges : Fin (n + 2) → ℝ} (he : GoodEdges norm edges) (argsort : List ℝ → List ℕ) (ha : IsArgsort argsort)
    (delaunay : Grid → Except Err (List (FV ℝ) → Bool)) (delaunay' : Grid → Except Err Unit) (planar : Grid → List (C → Fin (n + 1) → ℝ) → Callable (C → Fin (n + 1) → FV ℝ))
    (l : List (ℝ × (C → Fin (n + 1) → ℝ))) (h2 : 2 ≤ l.length) (hn : (l.map Prod.fst).Nodup) (hpos : ∀ q ∈ l, ∀ c b, 0 ≤ q.2 c b) :
    ∃ e, discreteInit argsort delaunay (.oneD (l.map Prod.fst)) (.rows (List.ofFn edges)) (.rows (l.map Prod.snd)) (n + 1)
        (fun e => morphInterpolator norm (fun i => e.getD i.val 0) delaunay' planar) none = .ok e ∧
      ∀ t : ℝ, ((∀ q ∈ l, t < q.1) ∨ (∀ q ∈ l, q.1 < t) → e.call (.oneD [.fin t]) = ⟨.error .valueError, false⟩) ∧
        ((∃ q ∈ l, q.1 = t) → (∀ q ∈ l, q.1 ≤ t) → e.call (.oneD [.fin t]) = ⟨.error .indexError, false⟩) ∧
        ((∃ q ∈ l, q.1 ≤ t) → (∃ q ∈ l, t < q.1) → ∃ r x y, e.call (.oneD [.fin t]) = ⟨.ok r, false⟩ ∧ Enclosing l x y t ∧ ∀ c, IsPdfOrZero norm edges (r c) ∧
          (NearlyEmpty (x.2 c) ∨ NearlyEmpty (y.2 c) → ∀ b, r c b = .fin 0) ∧
          (¬ NearlyEmpty (x.2 c) → ¬ NearlyEmpty (y.2 c) →
            let w : Fin 2 → ℝ := ![1 - (t - x.1) / (y.1 - x.1), (t - x.1) / (y.1 - x.1)]
            (∀ b, r c b = .fin (if pdfIntegral norm edges (morphDensity norm edges ![x.2 c, y.2 c] w) = 0 then 0
              else morphDensity norm edges ![x.2 c, y.2 c] w b / pdfIntegral norm edges (morphDensity norm edges ![x.2 c, y.2 c] w))) ∧
            (t = x.1 → pdfIntegral norm edges (x.2 c) = 1 → ∀ b, r c b = .fin (x.2 c b)))) := by
  obtain ⟨l', hperm, hs, hsort⟩ := sortRows_line (fun v : C → Fin (n + 1) → ℝ => v) argsort ha l hn
  have hlen : l'.length = l.length := hperm.length_eq
  have hcoord : ((l'.map Prod.fst).map fun x => [x]).map coord = l'.map Prod.fst := by simp [List.map_map, Function.comp_def, coord]
  have hclass : simplexClassInit (delaunay' ((l'.map Prod.fst).map fun x => [x])) (gridShape ((l'.map Prod.fst).map fun x => [x])) = .ok (l'.length, 1) := by
    refine (C114_simplex_classes _ _ l'.length 1 (Or.inr ⟨[], ?_⟩)).1 (by omega)
    have : (((l'.map Prod.fst).map fun x => [x]).headD []).length = 1 := by
      cases l' with
      | nil => simp at hlen; omega
      | cons a l' => rfl
    rw [gridShape, this]
    simp
  have hedges : (fun i : Fin (n + 2) => (List.ofFn edges).getD i.val 0) = edges := by
    funext i
    rw [List.getD_eq_getElem?_getD, List.getElem?_eq_getElem (by rw [List.length_ofFn]; exact i.isLt), List.getElem_ofFn]
    rfl
  have hmono : ∀ i j (hi : i < l'.length) (hj : j < l'.length), i < j → l'[i].1 < l'[j].1 := by
    intro i j hi hj hij
    have := List.pairwise_iff_getElem.mp hs i j (by simpa using hi) (by simpa using hj) hij
    simpa using this
  let P : Fin (l'.map Prod.fst).length → C → Fin (n + 1) → ℝ := fun i => (l'.map fun q => q.2).getD i.val fun _ _ => 0
  let f : Callable (C → Fin (n + 1) → FV ℝ) := fun t => match t with
        | [.fin x] => morphInterpolate1D norm edges (l'.map Prod.fst) P x
        | _ => .error .valueError
  have hP : ∀ (k : ℕ) (hk : k < (l'.map Prod.fst).length) (hk' : k < l'.length), P ⟨k, hk⟩ = l'[k].2 := by
    intro k hk hk'
    simp [P, List.getD_eq_getElem?_getD, hk']
  have hP0 : ∀ j c b, 0 ≤ P j c b := by
    intro j c b
    have hj : j.val < l'.length := by simpa using j.isLt
    rw [show P j = l'[j.val].2 from hP j.val j.isLt hj]
    exact hpos _ (hperm.mem_iff.mp (List.getElem_mem _)) c b
  refine ⟨⟨1, (l'.map Prod.fst).map fun x => [x], fun _ => false, f, none⟩, ?_, ?_⟩
  · have e1 : l.map Prod.snd = l.map fun q => q.2 := rfl
    rw [discreteInit_1d argsort delaunay _ (by simpa using h2) _ (by simp) (n + 1) _ (by simp), e1, hsort]
    simp only [buildEstimator, morphInterpolator, hclass, if_true, hedges, Option.map_none]
    congr 2
    funext t
    have key : ∀ (G : List ℝ), G = l'.map Prod.fst → ∀ x, morphInterpolate1D norm edges G (fun i => (l'.map fun q => q.2).getD i.val fun _ _ => 0) x =
        morphInterpolate1D norm edges (l'.map Prod.fst) P x := by
      rintro G rfl x; rfl
    simp only [f]
    match t with
    | [] => rfl
    | [.fin x] => exact key _ hcoord _
    | [.nan] => rfl
    | [.pinf] => rfl
    | [.ninf] => rfl
    | a :: _ :: _ => cases a <;> rfl
  · intro t
    have hdisp := dispatch_line hperm (by rintro rfl; simp at h2) f none (.fin t)
    simp only [FV.le_fin, decide_eq_true_eq] at hdisp
    refine ⟨fun h => ?_, fun h h' => ?_, fun h h' => ?_⟩
    · refine (hdisp.2 ?_).2 trivial
      rintro ⟨⟨q, hq, h3⟩, q', hq', h4⟩
      rcases h with h | h
      · exact absurd (h q hq) (not_lt.mpr h3)
      · exact absurd (h q' hq') (not_lt.mpr h4)
    · obtain ⟨q, hq, rfl⟩ := h
      refine (hdisp.1 ⟨⟨q, hq, le_rfl⟩, q, hq, le_rfl⟩).trans ?_
      have hlast : q.1 = (l'.map Prod.fst)[(l'.map Prod.fst).length - 1]'(by simp; omega) := by
        obtain ⟨j, hj, rfl⟩ := List.getElem_of_mem (hperm.mem_iff.mpr hq)
        have hjl : j = l'.length - 1 := by
          by_contra hc
          have := hmono j (l'.length - 1) hj (by omega) (by omega)
          exact absurd (h' _ (hperm.mem_iff.mp (List.getElem_mem (by omega : l'.length - 1 < l'.length)))) (not_le.mpr this)
        subst hjl
        simp
      have := C94_largest_grid_point norm edges (l'.map Prod.fst) hs P (by simp; omega)
      rw [← hlast] at this
      show (⟨morphInterpolate1D norm edges (l'.map Prod.fst) P q.1, false⟩ : Outcome _) = _
      rw [this]
    · obtain ⟨q, hq, h3⟩ := h
      obtain ⟨q', hq', h4⟩ := h'
      have hcall := hdisp.1 ⟨⟨q, hq, h3⟩, q', hq', h4.le⟩
      -- the first grid point above the target
      have hex : ∃ k, ∃ hk : k < l'.length, t < l'[k].1 := by
        obtain ⟨j, hj, rfl⟩ := List.getElem_of_mem (hperm.mem_iff.mpr hq')
        exact ⟨j, hj, h4⟩
      obtain ⟨k, hk, htk, hmin⟩ : ∃ k, ∃ hk : k < l'.length, t < l'[k].1 ∧ ∀ j (hj : j < l'.length), j < k → l'[j].1 ≤ t :=
        ⟨Nat.find hex, (Nat.find_spec hex).1, (Nat.find_spec hex).2, fun j hj hjk => not_lt.mp fun hc => Nat.find_min hex hjk ⟨hj, hc⟩⟩
      have hk0 : 0 < k := by
        by_contra hc
        have hk00 : k = 0 := by omega
        obtain ⟨j, hj, rfl⟩ := List.getElem_of_mem (hperm.mem_iff.mpr hq)
        rcases Nat.eq_zero_or_pos j with rfl | hj0
        · have : t < l'[0].1 := by simpa only [hk00] using htk
          linarith
        · have := hmono 0 j (by omega) hj hj0
          have h5 : t < l'[0].1 := by simpa only [hk00] using htk
          linarith
      obtain ⟨i, hi⟩ : ∃ i, k = i + 1 := ⟨k - 1, by omega⟩
      have hi' : i + 1 < l'.length := by omega
      have h5 : l'[i].1 ≤ t := hmin i (by omega) (by omega)
      have h6 : t < l'[i + 1].1 := by simpa only [hi] using htk
      have hgi : (l'.map Prod.fst)[i]'(by simp; omega) = l'[i].1 := by simp
      have hgi' : (l'.map Prod.fst)[i + 1]'(by simp; omega) = l'[i + 1].1 := by simp
      have hmorph := morph1D_eq norm edges (l'.map Prod.fst) hs P t i (by simpa using hi') (by rw [hgi]; exact h5) (by rw [hgi']; exact h6)
      have hPP : (fun j => P (![⟨i, by simp; omega⟩, ⟨i + 1, by simpa using hi'⟩] j)) = ![l'[i].2, l'[i + 1].2] := by
        funext j; fin_cases j
        · exact hP i _ (by omega)
        · exact hP (i + 1) _ hi'
      rw [hPP] at hmorph
      simp only [hgi, hgi'] at hmorph
      have hsub : 0 < l'[i + 1].1 - l'[i].1 := by linarith
      have hw0 : 0 ≤ (t - l'[i].1) / (l'[i + 1].1 - l'[i].1) := div_nonneg (by linarith) hsub.le
      have hw1 : (t - l'[i].1) / (l'[i + 1].1 - l'[i].1) ≤ 1 := by rw [div_le_one hsub]; linarith
      have hmi := hperm.mem_iff.mp (List.getElem_mem (show i < l'.length by omega))
      have hmi' := hperm.mem_iff.mp (List.getElem_mem hi')
      obtain ⟨r, hr, hc⟩ := C55_moment_morph he ![l'[i].2, l'[i + 1].2] (by intro j c b; fin_cases j; exacts [hpos _ hmi c b, hpos _ hmi' c b])
        ![1 - (t - l'[i].1) / (l'[i + 1].1 - l'[i].1), (t - l'[i].1) / (l'[i + 1].1 - l'[i].1)]
        (by intro j; fin_cases j
            · simp; linarith
            · simpa using hw0) (by simp)
      rw [hr] at hmorph
      have hcol : ∀ c, (fun j => (![l'[i].2, l'[i + 1].2] : Fin 2 → C → Fin (n + 1) → ℝ) j c) = ![l'[i].2 c, l'[i + 1].2 c] := by
        intro c; funext j; fin_cases j <;> rfl
      refine ⟨r, l'[i], l'[i + 1], hcall.trans ?_, ⟨hmi, hmi', h5, h6, ?_⟩, fun c => ⟨(hc c).1, ?_, fun z1 z2 => ⟨?_, ?_⟩⟩⟩
      · show (⟨morphInterpolate1D norm edges (l'.map Prod.fst) P t, false⟩ : Outcome _) = _
        rw [hmorph]
      · intro p hp
        obtain ⟨j, hj, rfl⟩ := List.getElem_of_mem (hperm.mem_iff.mpr hp)
        rcases Nat.lt_or_ge i j with h | h
        · right
          rcases (show i + 1 ≤ j by omega).lt_or_eq with h' | h'
          · exact (hmono _ _ _ _ h').le
          · subst h'; exact le_rfl
        · left
          rcases h.lt_or_eq with h' | h'
          · exact (hmono _ _ _ _ h').le
          · subst h'; exact le_rfl
      · rintro (hz | hz)
        · exact (hc c).2.1 ⟨0, hz⟩
        · exact (hc c).2.1 ⟨1, hz⟩
      · have := (hc c).2.2 (by intro j; fin_cases j; exacts [z1, z2])
        rw [hcol] at this
        exact this
      · intro ht h1 b
        have hlt : l'[i].1 < l'[i + 1].1 := hmono _ _ _ _ (by omega)
        obtain ⟨r', hr', hc'⟩ := C56_grid_point_1d he (l'.map Prod.fst) hs P hP0 i (by simpa using hi')
        rw [hgi, ← ht, hmorph] at hr'
        cases hr'
        have := hc' c (by rw [hP i _ (by omega)]; exact h1) (by rw [hP i _ (by omega)]; exact z1) (by rw [hP (i + 1) _ hi']; exact z2) b
        rw [hP i _ (by omega)] at this
        exact this

/-! ## The hypotheses can be met -/

/-- C114: three points in two, four points in three dimensions, five numbers -/
example : HasDim [3, 2] 3 2 ∧ HasDim [4, 3] 4 3 ∧ HasDim [5] 5 1 := ⟨Or.inr ⟨[], rfl⟩, Or.inr ⟨[], rfl⟩, Or.inl ⟨rfl, rfl⟩⟩

/-- C114: a tetrahedron with a nearest neighbor interpolator -/
example : ∃ e, parametrizedInit stableArgsort (fun _ => .ok fun _ => true) (.twoD 3 [[0, 0, 0], [1, 0, 0], [0, 1, 0], [0, 0, 1]])
      (.rows [fun (_ : List ℕ) => (FV.fin (1 : ℝ)), fun _ => .fin 2, fun _ => .fin 3, fun _ => .fin 4]) (.cls fun _ rows => .ok fun _ => .ok (rows.headD fun _ => .nan)) none = .ok e ∧
    parametrizedInit stableArgsort (fun _ => .ok fun _ => true) (.twoD 3 [[0, 0, 0], [1, 0, 0], [0, 1, 0], [0, 0, 1]])
      (.rows [fun _ => .fin 1, fun _ => .fin 2, fun _ => .fin 3, fun _ => .fin 4]) (.cls fun _ rows => .ok fun _ => .ok (rows.headD fun _ => .nan))
      (some (simplexExtrapolator (fun _ => .ok ()) (fun _ _ _ => .error .valueError) [1])) = .error .notImplementedError := by
  have := C114_estimator_3d stableArgsort (fun _ => .ok fun _ => true) (fun _ => .ok ()) (fun _ _ _ => .error .valueError) [1] 3 (by norm_num)
    [[0, 0, 0], [1, 0, 0], [0, 1, 0], [0, 0, 1]] (by simp) (by simp) (fun _ => true) rfl [fun _ => .fin 1, fun _ => .fin 2, fun _ => .fin 3, fun _ => .fin 4] rfl
    (fun _ rows => .ok fun _ => .ok (rows.headD fun _ => .nan)) _ rfl
  exact ⟨_, this.1, this.2⟩

/-- C116: of the points 3 and 1 (in this order) the middle gets the parameters of 1, and 10 those of 3 with a warning -/
example : ∃ e, parametrizedInit stableArgsort (fun _ => .error .valueError) (.oneD [3, 1]) (.rows ["three", "one"]) (nearestSearcher (.num (.fin (2 : ℕ))))
      (some (nearestSearcher (.num (.fin (1 : ℕ))))) = .ok e ∧ e.call (.oneD [.fin 2]) = ⟨.ok "one", false⟩ ∧ e.call (.oneD [.fin 10]) = ⟨.ok "three", true⟩ := by
  obtain ⟨e, he, h, -⟩ := C116_nearest_1d stableArgsort stableArgsort_isArgsort (fun _ => .error .valueError) 2 1 (by norm_num) (by norm_num)
    [((3 : ℝ), "three"), (1, "one")] (by simp) (by norm_num)
  refine ⟨e, he, ?_, ?_⟩
  · obtain ⟨x, hx, w, hc, hw, hb⟩ := h 2
    have hx1 : x = (1, "one") := by
      simp only [List.mem_cons, List.not_mem_nil, or_false] at hx
      rcases hx with rfl | rfl
      · have := hb (1, "one") (by simp)
        norm_num at this
      · rfl
    have hwf : w = false := by
      rw [← Bool.not_eq_true, hw]
      rintro (h | h)
      · have := h (1, "one") (by simp); norm_num at this
      · have := h (3, "three") (by simp); norm_num at this
    rw [hc, hx1, hwf]
  · obtain ⟨x, hx, w, hc, hw, hb⟩ := h 10
    have hx1 : x = (3, "three") := by
      simp only [List.mem_cons, List.not_mem_nil, or_false] at hx
      rcases hx with rfl | rfl
      · rfl
      · have := hb (3, "three") (by simp)
        norm_num [abs_of_neg] at this
    have hwt : w = true := hw.mpr (Or.inr (by simp; norm_num))
    rw [hc, hx1, hwt]

/-- C116: the corners of a triangle -/
example : ∃ e, parametrizedInit stableArgsort (fun _ => .ok fun _ => false) (.twoD 2 [[0, 0], [1, 0], [0, 1]]) (.rows ["a", "b", "c"]) (nearestSearcher (.num (.fin (2 : ℕ))))
      (some (nearestSearcher (.num (.fin (2 : ℕ))))) = .ok e := by
  obtain ⟨e, he, -⟩ := C116_nearest_nd stableArgsort (fun _ => .ok fun _ => false) 2 (by norm_num) 2 le_rfl
    [([(0 : ℝ), 0], "a"), ([1, 0], "b"), ([0, 1], "c")] (by simp) (fun _ => false) rfl
  exact ⟨e, he⟩

/-- C117: two normalized templates, given with the larger grid point first; the one of 0 is reproduced, 1 raises IndexError -/
example : ∃ e, discreteInit stableArgsort (fun _ => .error .valueError) (.oneD [1, 0]) (.rows (List.ofFn (![0, 1, 3] : Fin 3 → ℝ)))
      (.rows [badPdf ⟨1, by simp⟩, badPdf ⟨0, by simp⟩]) 2
      (fun e => morphInterpolator (n := 1) (C := Unit) .area (fun i => e.getD i.val 0) (fun _ => .error .valueError) fun _ _ _ => .error .valueError) none = .ok e ∧
    e.call (.oneD [.fin 1]) = ⟨.error .indexError, false⟩ ∧ e.call (.oneD [.fin 2]) = ⟨.error .valueError, false⟩ ∧
    ∃ r, e.call (.oneD [.fin 0]) = ⟨.ok r, false⟩ ∧ ∀ b, r () b = .fin (badPdf ⟨0, by simp⟩ () b) := by
  have hp : ∀ j c b, 0 ≤ badPdf j c b := by
    intro j c b; unfold badPdf; split <;> fin_cases b <;> norm_num
  have hne : ∀ j c, ¬ NearlyEmpty (badPdf j c) := by
    intro j c; unfold NearlyEmpty; rw [sum2]; unfold badPdf; split <;> norm_num [sum2]
  obtain ⟨e, he, h⟩ := C117_moment_morph_1d edges013 stableArgsort stableArgsort_isArgsort (fun _ => .error .valueError) (fun _ => .error .valueError) (fun _ _ _ => .error .valueError)
    [((1 : ℝ), badPdf ⟨1, by simp⟩), (0, badPdf ⟨0, by simp⟩)] (by simp) (by norm_num) (by
      intro q hq c b
      simp only [List.mem_cons, List.not_mem_nil, or_false] at hq
      rcases hq with rfl | rfl
      · exact hp ⟨1, by simp⟩ c b
      · exact hp ⟨0, by simp⟩ c b)
  refine ⟨e, he, (h 1).2.1 ⟨(1, badPdf ⟨1, by simp⟩), by simp, rfl⟩ (by simp), (h 2).1 (Or.inr (by simp)), ?_⟩
  obtain ⟨r, x, y, hc, ⟨hx, hy, h1, h2, -⟩, hr⟩ := (h 0).2.2 ⟨(0, badPdf ⟨0, by simp⟩), by simp, le_rfl⟩ ⟨(1, badPdf ⟨1, by simp⟩), by simp, by norm_num⟩
  have hx0 : x = (0, badPdf ⟨0, by simp⟩) := by
    simp only [List.mem_cons, List.not_mem_nil, or_false] at hx
    rcases hx with rfl | rfl
    · norm_num at h1
    · rfl
  have hy1 : y = (1, badPdf ⟨1, by simp⟩) := by
    simp only [List.mem_cons, List.not_mem_nil, or_false] at hy
    rcases hy with rfl | rfl
    · rfl
    · norm_num at h2
  subst hx0 hy1
  exact ⟨r, hc, ((hr ()).2.2 (hne ⟨0, by simp⟩ ()) (hne ⟨1, by simp⟩ ())).2 rfl (badPdf_integral ⟨0, by simp⟩ ())⟩

end Pyirf.Interpolation
