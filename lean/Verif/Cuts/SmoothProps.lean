import Verif.Cuts.PercentileProps
import Mathlib.Analysis.Real.Sqrt

/-!
# Properties C13, C74: smoothing of percentile cuts
-/
set_option linter.unusedSectionVars false
set_option linter.unusedSimpArgs false

namespace Pyirf.Cuts
open Pyirf Pyirf.Binning

/-! ## Lemmas -/

theorem gaussKernel_pos (sigma : ℝ) (j : ℕ) : 0 < gaussKernel sigma j := by
  unfold gaussKernel
  apply div_pos (Real.exp_pos _)
  exact Finset.sum_pos (fun _ _ => Real.exp_pos _) ⟨0, by simp⟩

theorem gaussKernel_sum (sigma : ℝ) :
    ∑ j ∈ Finset.range (2 * kernelRadius sigma + 1), gaussKernel sigma j = 1 := by
  unfold gaussKernel
  simp only []
  rw [← Finset.sum_div, div_self]
  exact ne_of_gt (Finset.sum_pos (fun _ _ => Real.exp_pos _) ⟨0, by simp⟩)

theorem gaussKernel_symm (sigma : ℝ) (j : ℕ) (h : j ≤ 2 * kernelRadius sigma) :
    gaussKernel sigma (2 * kernelRadius sigma - j) = gaussKernel sigma j := by
  unfold gaussKernel
  simp only []
  congr 2
  push_cast [h]
  ring

theorem foldl_fin (n : ℕ) (w y : ℕ → ℝ) :
    (List.range n).foldl (fun acc j => acc + FV.fin (w j) * FV.fin (y j)) (FV.fin 0)
      = FV.fin (∑ j ∈ Finset.range n, w j * y j) := by
  induction n with
  | zero => simp
  | succ n ih =>
    rw [List.range_succ, List.foldl_append, ih, Finset.sum_range_succ]
    rfl

/-- smoothing finite values is a weighted sum of finite values -/
theorem gaussianFilter1d_fin (sigma : ℝ) (ys : List ℝ) :
    gaussianFilter1d sigma (ys.map FV.fin) = (List.range ys.length).map fun (i : ℕ) =>
      FV.fin (∑ j ∈ Finset.range (2 * kernelRadius sigma + 1),
        gaussKernel sigma j * ys.getD (min (i + j - kernelRadius sigma) (ys.length - 1)) 0) := by
  unfold gaussianFilter1d
  simp only [List.length_map]
  apply List.map_congr_left
  intro i hi
  rw [← foldl_fin]
  have hi : i < ys.length := by simpa using hi
  congr 1
  funext acc j
  have hlt : min (i + j - kernelRadius sigma) (ys.length - 1) < ys.length := by omega
  simp [List.getD_eq_getElem?_getD, List.getElem?_map, List.getElem?_eq_getElem hlt]

/-- Weights `w` of a Gaussian with standard deviation `sigma` (in bins): in the ratio of the Gaussian's densities for all distances up to four standard deviations,
rounded to the nearest integer. -/
def GaussWeights (sigma : ℝ) (R : ℕ) (w : ℤ → ℝ) : Prop :=
  (R : ℝ) ≤ 4 * sigma + 1 / 2 ∧ 4 * sigma + 1 / 2 < R + 1 ∧ ∀ d : ℤ, |d| ≤ R → w d = w 0 * Real.exp (-(d : ℝ) ^ 2 / (2 * sigma ^ 2))

/-- The smoothing filter as a weighted average with symmetric positive weights, values beyond the ends repeated. -/
theorem gaussianFilter1d_average (sigma : ℝ) (hs : 0 < sigma) :
    ∃ (R : ℕ) (w : ℤ → ℝ), GaussWeights sigma R w ∧ (∀ d : ℤ, |d| ≤ R → 0 < w d) ∧ (∀ d, w (-d) = w d) ∧
      (∑ d ∈ Finset.Icc (-(R : ℤ)) R, w d = 1) ∧
      ∀ ys : List ℝ, gaussianFilter1d sigma (ys.map FV.fin) = (List.range ys.length).map fun (i : ℕ) =>
        FV.fin (∑ d ∈ Finset.Icc (-(R : ℤ)) R, w d * ys.getD (max 0 (min ((i : ℤ) + d) (ys.length - 1))).toNat 0) := by
  classical
  set R := kernelRadius sigma with hR
  have hsum : ∀ F : ℤ → ℝ, ∑ d ∈ Finset.Icc (-(R : ℤ)) R, F d
      = ∑ j ∈ Finset.range (2 * R + 1), F ((j : ℤ) - R) := by
    intro F
    symm
    apply Finset.sum_bij (fun (j : ℕ) _ => (j : ℤ) - R)
    · intro j hj; simp only [Finset.mem_range] at hj; simp only [Finset.mem_Icc]; omega
    · intro a _ b _ h; omega
    · intro d hd
      simp only [Finset.mem_Icc] at hd
      exact ⟨(d + R).toNat, by simp only [Finset.mem_range]; omega, by omega⟩
    · intro j _; rfl
  refine ⟨R, fun d => gaussKernel sigma (|d| + R).toNat, ⟨?_, ?_, ?_⟩, ?_, ?_, ?_, ?_⟩
  · have h0 : 0 ≤ ⌊4 * sigma + 1 / 2⌋ := Int.floor_nonneg.mpr (by linarith)
    have : ((R : ℤ) : ℝ) ≤ 4 * sigma + 1 / 2 := by rw [hR, kernelRadius, Int.toNat_of_nonneg h0]; exact Int.floor_le _
    exact_mod_cast this
  · have h0 : 0 ≤ ⌊4 * sigma + 1 / 2⌋ := Int.floor_nonneg.mpr (by linarith)
    have : 4 * sigma + 1 / 2 < ((R : ℤ) : ℝ) + 1 := by rw [hR, kernelRadius, Int.toNat_of_nonneg h0]; exact Int.lt_floor_add_one _
    exact_mod_cast this
  · intro d _
    have e1 : (((|d| + (R : ℤ)).toNat : ℕ) : ℝ) - (R : ℝ) = |(d : ℝ)| := by
      have h1 : (((|d| + (R : ℤ)).toNat : ℤ)) = |d| + R := Int.toNat_of_nonneg (by positivity)
      have h2 : (((|d| + (R : ℤ)).toNat : ℕ) : ℝ) = ((|d| + R : ℤ) : ℝ) := by rw [← h1]; push_cast; rfl
      rw [h2]; push_cast; ring
    have e2 : (((|(0 : ℤ)| + (R : ℤ)).toNat : ℕ) : ℝ) - (R : ℝ) = 0 := by simp
    simp only [gaussKernel, ← hR]
    rw [e1, e2, sq_abs]
    have e3 : -(1 / 2) / sigma ^ 2 * (d : ℝ) ^ 2 = -(d : ℝ) ^ 2 / (2 * sigma ^ 2) := by
      field_simp
    rw [e3]
    norm_num
    ring
  · intro d _; exact gaussKernel_pos _ _
  · intro d; simp
  · rw [hsum, ← gaussKernel_sum sigma]
    apply Finset.sum_congr rfl
    intro j hj
    simp only [Finset.mem_range] at hj
    rcases le_total R j with h | h
    · congr 1; rw [abs_of_nonneg (by omega)]; omega
    · rw [← gaussKernel_symm sigma j (by omega)]
      congr 1; rw [abs_of_nonpos (by omega)]; omega
  · intro ys
    rw [gaussianFilter1d_fin]
    apply List.map_congr_left
    intro i hi
    have hi : i < ys.length := by simpa using hi
    simp only [FV.fin.injEq]
    rw [hsum]
    apply Finset.sum_congr rfl
    intro j hj
    simp only [Finset.mem_range] at hj
    congr 1
    · rcases le_total R j with h | h
      · congr 1; rw [abs_of_nonneg (by omega)]; omega
      · rw [← gaussKernel_symm sigma j (by omega)]
        congr 1; rw [abs_of_nonpos (by omega)]; omega
    · congr 1
      omega

/-! ## C13 -/

/-- **C13** Smoothing replaces every finite cut by a weighted average over neighbouring energy bins: weights depend
only on the bin distance `d`, are those of a Gaussian with standard deviation `sigma` up to a radius of four standard deviations, positive, symmetric and sum to 1; beyond the first and
last bin the value of that bin is repeated. -/
theorem C13_weighted_average (sigma : ℝ) (hs : 0 < sigma) :
    ∃ (R : ℕ) (w : ℤ → ℝ), GaussWeights sigma R w ∧ (∀ d : ℤ, |d| ≤ R → 0 < w d) ∧ (∀ d, w (-d) = w d) ∧
      (∑ d ∈ Finset.Icc (-(R : ℤ)) R, w d = 1) ∧
      ∀ (evs : List (FV ℝ × FV ℝ)) (bins : List (FV ℝ)) (fill : FV ℝ) (p : ℝ) (minV maxV : Option (FV ℝ))
        (minEvents : ℤ) (t : CutTable ℝ (FV ℝ)) (ys : List ℝ),
        percentileCutSmoothed evs bins fill p minV maxV none minEvents = .ok t → t.cut = ys.map FV.fin →
        ∃ t', percentileCutSmoothed evs bins fill p minV maxV (some sigma) minEvents = .ok t' ∧
          t'.low = t.low ∧ t'.high = t.high ∧ t'.nEvents = t.nEvents ∧
          ∃ hl : t'.cut.length = ys.length, ∀ (i : ℕ) (hi : i < ys.length),
            t'.cut[i] = FV.fin (∑ d ∈ Finset.Icc (-(R : ℤ)) R,
              w d * ys.getD (max 0 (min ((i : ℤ) + d) (ys.length - 1))).toNat 0) := by
  obtain ⟨R, w, h0, h1, h2, h3, h4⟩ := gaussianFilter1d_average sigma hs
  refine ⟨R, w, h0, h1, h2, h3, ?_⟩
  intro evs bins fill p minV maxV minEvents t ys ht hys
  unfold percentileCutSmoothed at ht ⊢
  revert ht
  cases hc : percentileCut evs bins fill p minV maxV minEvents with
  | error e => intro ht; exact absurd ht (by simp)
  | ok t0 =>
    intro ht
    simp only [Except.ok.injEq] at ht
    subst ht
    refine ⟨_, rfl, rfl, rfl, rfl, ?_⟩
    simp only [hys, h4]
    refine ⟨by simp, ?_⟩
    intro i hi
    simp only [List.getElem_map, List.getElem_range]

/-- **C13** Every smoothed cut lies between any bounds of the unsmoothed cuts. -/
theorem C13_between (sigma : ℝ) (hs : 0 < sigma) (evs : List (FV ℝ × FV ℝ)) (bins : List (FV ℝ)) (fill : FV ℝ) (p : ℝ)
    (minV maxV : Option (FV ℝ)) (minEvents : ℤ) (t t' : CutTable ℝ (FV ℝ))
    (ht : percentileCutSmoothed evs bins fill p minV maxV none minEvents = .ok t)
    (ht' : percentileCutSmoothed evs bins fill p minV maxV (some sigma) minEvents = .ok t')
    (lo hi : ℝ) (hb : ∀ c ∈ t.cut, FV.le (.fin lo) c = true ∧ FV.le c (.fin hi) = true) :
    t'.cut.length = t.cut.length ∧ ∀ c ∈ t'.cut, FV.le (.fin lo) c = true ∧ FV.le c (.fin hi) = true := by
  have hfin : ∃ ys : List ℝ, t.cut = ys.map FV.fin ∧ ∀ y ∈ ys, lo ≤ y ∧ y ≤ hi := by
    generalize t.cut = l at hb
    induction l with
    | nil => exact ⟨[], rfl, by simp⟩
    | cons c l ih =>
      obtain ⟨ys, e, hy⟩ := ih (fun c hc => hb c (by simp [hc]))
      have := hb c (by simp)
      cases c with
      | fin x => exact ⟨x :: ys, by simp [e], by
          intro y h; rcases List.mem_cons.mp h with rfl | h
          · simpa [FV.le] using this
          · exact hy y h⟩
      | nan => simp [FV.le] at this
      | ninf => simp [FV.le] at this
      | pinf => simp [FV.le] at this
  obtain ⟨ys, hys, hyb⟩ := hfin
  obtain ⟨R, w, -, w1, -, w3, w4⟩ := C13_weighted_average sigma hs
  obtain ⟨t'', e, -, -, -, hl, hval⟩ := w4 evs bins fill p minV maxV minEvents t ys ht hys
  rw [e] at ht'
  obtain rfl := Except.ok.inj ht'
  refine ⟨by rw [hl, hys]; simp, ?_⟩
  intro c hc
  obtain ⟨i, hi', rfl⟩ := List.getElem_of_mem hc
  rw [hval i (by omega)]
  have hget : ∀ d : ℤ, lo ≤ ys.getD (max 0 (min ((i : ℤ) + d) (ys.length - 1))).toNat 0 ∧
      ys.getD (max 0 (min ((i : ℤ) + d) (ys.length - 1))).toNat 0 ≤ hi := by
    intro d
    have hlt : (max 0 (min ((i : ℤ) + d) (ys.length - 1))).toNat < ys.length := by omega
    rw [List.getD_eq_getElem?_getD, List.getElem?_eq_getElem hlt]
    exact hyb _ (List.getElem_mem hlt)
  have hw0 : ∀ d ∈ Finset.Icc (-(R : ℤ)) R, 0 ≤ w d := by
    intro d hd
    rw [Finset.mem_Icc] at hd
    exact (w1 d (abs_le.mpr hd)).le
  simp only [FV.le, decide_eq_true_eq]
  constructor
  · calc lo = ∑ d ∈ Finset.Icc (-(R : ℤ)) R, w d * lo := by rw [← Finset.sum_mul, w3, one_mul]
      _ ≤ _ := Finset.sum_le_sum fun d hd => mul_le_mul_of_nonneg_left (hget d).1 (hw0 d hd)
  · calc _ ≤ ∑ d ∈ Finset.Icc (-(R : ℤ)) R, w d * hi :=
          Finset.sum_le_sum fun d hd => mul_le_mul_of_nonneg_left (hget d).2 (hw0 d hd)
      _ = hi := by rw [← Finset.sum_mul, w3, one_mul]

/-- **C13** A table with equal finite cuts is unchanged by smoothing. -/
theorem C13_constant_unchanged (sigma : ℝ) (hs : 0 < sigma) (evs : List (FV ℝ × FV ℝ)) (bins : List (FV ℝ)) (fill : FV ℝ) (p : ℝ)
    (minV maxV : Option (FV ℝ)) (minEvents : ℤ) (t t' : CutTable ℝ (FV ℝ))
    (ht : percentileCutSmoothed evs bins fill p minV maxV none minEvents = .ok t)
    (ht' : percentileCutSmoothed evs bins fill p minV maxV (some sigma) minEvents = .ok t')
    (v : ℝ) (hb : ∀ c ∈ t.cut, c = .fin v) : t'.cut = t.cut := by
  obtain ⟨h1, h2⟩ := C13_between sigma hs evs bins fill p minV maxV minEvents t t' ht ht' v v
    (fun c hc => by rw [hb c hc]; simp [FV.le])
  apply List.ext_getElem h1
  intro i ha hb'
  have h3 := h2 _ (List.getElem_mem ha)
  rw [hb _ (List.getElem_mem hb')]
  exact (FV.le_antisymm' h3.1 h3.2).symm

/-! ## C74: smoothing of a list of percentiles -/

/-- **C74** For a list of percentiles the code smooths each row (one energy bin) over the *percentiles*: the smoothed row of a bin is a function
of the unsmoothed row of the same bin only, and for finite cuts it is the weighted average (weights positive, symmetric, adding up to 1, values
beyond the first and last percentile repeated) over the neighbouring entries of the list of percentiles. All else is unchanged. -/
theorem C74_row_average (sigma : ℝ) (hs : 0 < sigma) :
    ∃ (R : ℕ) (w : ℤ → ℝ) (f : List (FV ℝ) → List (FV ℝ)), GaussWeights sigma R w ∧ (∀ d : ℤ, |d| ≤ R → 0 < w d) ∧ (∀ d, w (-d) = w d) ∧
      (∑ d ∈ Finset.Icc (-(R : ℤ)) R, w d = 1) ∧
      (∀ ys : List ℝ, f (ys.map FV.fin) = (List.range ys.length).map fun (k : ℕ) =>
        FV.fin (∑ d ∈ Finset.Icc (-(R : ℤ)) R, w d * ys.getD (max 0 (min ((k : ℤ) + d) (ys.length - 1))).toNat 0)) ∧
      ∀ (evs : List (FV ℝ × FV ℝ)) (bins : List (FV ℝ)) (fill : FV ℝ) (ps : List ℝ) (minV maxV : Option (FV ℝ)) (minEvents : ℤ)
        (t : CutTable ℝ (List (FV ℝ))), percentileCutsSmoothed evs bins fill ps minV maxV none minEvents = .ok t →
        ∃ t', percentileCutsSmoothed evs bins fill ps minV maxV (some sigma) minEvents = .ok t' ∧
          t'.low = t.low ∧ t'.high = t.high ∧ t'.nEvents = t.nEvents ∧ t'.cut = t.cut.map f := by
  obtain ⟨R, w, h0, h1, h2, h3, h4⟩ := gaussianFilter1d_average sigma hs
  refine ⟨R, w, gaussianFilter1d sigma, h0, h1, h2, h3, h4, ?_⟩
  intro evs bins fill ps minV maxV minEvents t ht
  unfold percentileCutsSmoothed at ht ⊢
  revert ht
  cases hc : percentileCuts evs bins fill ps minV maxV minEvents with
  | error e => intro ht; exact absurd ht (by simp)
  | ok t0 =>
    intro ht
    simp only [Except.ok.injEq] at ht
    subst ht
    exact ⟨_, rfl, rfl, rfl, rfl, rfl⟩

/-- **C74** A call that fails without smoothing fails in the same way with smoothing. -/
theorem C74_same_errors (sigma : ℝ) (evs : List (FV ℝ × FV ℝ)) (bins : List (FV ℝ)) (fill : FV ℝ) (ps : List ℝ) (minV maxV : Option (FV ℝ))
    (minEvents : ℤ) (e : Err) :
    percentileCutsSmoothed evs bins fill ps minV maxV none minEvents = .error e ↔
      percentileCutsSmoothed evs bins fill ps minV maxV (some sigma) minEvents = .error e := by
  unfold percentileCutsSmoothed
  cases percentileCuts evs bins fill ps minV maxV minEvents <;> simp

/-- **C74** So with a single percentile in the list, smoothing has no effect, however different the cuts of neighbouring energy bins are. -/
theorem C74_single_percentile_unchanged (sigma : ℝ) (hs : 0 < sigma) (evs : List (FV ℝ × FV ℝ)) (bins : List (FV ℝ)) (fill : FV ℝ) (p : ℝ)
    (minV maxV : Option (FV ℝ)) (minEvents : ℤ) (t t' : CutTable ℝ (List (FV ℝ)))
    (ht : percentileCutsSmoothed evs bins fill [p] minV maxV none minEvents = .ok t)
    (ht' : percentileCutsSmoothed evs bins fill [p] minV maxV (some sigma) minEvents = .ok t')
    (i : ℕ) (y : ℝ) (hy : t.cut[i]? = some [.fin y]) : t'.cut[i]? = some [.fin y] := by
  obtain ⟨R, w, f, -, -, -, h3, h4, h5⟩ := C74_row_average sigma hs
  obtain ⟨t'', e, -, -, -, hc⟩ := h5 evs bins fill [p] minV maxV minEvents t ht
  rw [e] at ht'
  obtain rfl := Except.ok.inj ht'
  rw [hc, List.getElem?_map, hy]
  have := h4 [y]
  simp only [List.map_cons, List.map_nil, List.length_singleton, List.range_one, Option.map_some] at this ⊢
  rw [this]
  have hz : ∀ d : ℤ, (max 0 (min (((0:ℕ) : ℤ) + d) ((1:ℕ) - 1))).toNat = 0 := by intro d; omega
  simp only [hz]
  simp [← Finset.sum_mul, h3]

/-- **C74** So every smoothed cut lies between the bounds of the unsmoothed cuts *of the same energy bin*. -/
theorem C74_row_between (sigma : ℝ) (hs : 0 < sigma) (evs : List (FV ℝ × FV ℝ)) (bins : List (FV ℝ)) (fill : FV ℝ)
    (ps : List ℝ) (minV maxV : Option (FV ℝ)) (minEvents : ℤ) (t t' : CutTable ℝ (List (FV ℝ)))
    (ht : percentileCutsSmoothed evs bins fill ps minV maxV none minEvents = .ok t)
    (ht' : percentileCutsSmoothed evs bins fill ps minV maxV (some sigma) minEvents = .ok t')
    (i : ℕ) (hi : i < t.cut.length) (ys : List ℝ) (hys : t.cut[i] = ys.map FV.fin) (lo hi' : ℝ)
    (hb : ∀ y ∈ ys, lo ≤ y ∧ y ≤ hi') :
    ∃ h : i < t'.cut.length, ∀ c ∈ t'.cut[i], FV.le (.fin lo) c = true ∧ FV.le c (.fin hi') = true := by
  unfold percentileCutsSmoothed at ht ht'
  cases hc : percentileCuts evs bins fill ps minV maxV minEvents with
  | error e => rw [hc] at ht; exact absurd ht (by simp)
  | ok t0 =>
    rw [hc] at ht ht'
    simp only [Except.ok.injEq] at ht ht'
    subst ht; subst ht'
    refine ⟨by simpa using hi, ?_⟩
    simp only [List.getElem_map, hys, gaussianFilter1d_fin, List.mem_map, List.mem_range]
    rintro c ⟨k, hk, rfl⟩
    have hget : ∀ j, lo ≤ ys.getD (min (k + j - kernelRadius sigma) (ys.length - 1)) 0 ∧
        ys.getD (min (k + j - kernelRadius sigma) (ys.length - 1)) 0 ≤ hi' := by
      intro j
      have hlt : min (k + j - kernelRadius sigma) (ys.length - 1) < ys.length := by omega
      rw [List.getD_eq_getElem?_getD, List.getElem?_eq_getElem hlt]
      exact hb _ (List.getElem_mem hlt)
    have hsum := gaussKernel_sum sigma
    simp only [FV.le, decide_eq_true_eq]
    constructor
    · calc lo = ∑ j ∈ Finset.range (2 * kernelRadius sigma + 1), gaussKernel sigma j * lo := by
            rw [← Finset.sum_mul, hsum, one_mul]
        _ ≤ _ := Finset.sum_le_sum fun d _ => mul_le_mul_of_nonneg_left (hget d).1 (gaussKernel_pos _ _).le
    · calc _ ≤ ∑ j ∈ Finset.range (2 * kernelRadius sigma + 1), gaussKernel sigma j * hi' :=
            Finset.sum_le_sum fun d _ => mul_le_mul_of_nonneg_left (hget d).2 (gaussKernel_pos _ _).le
        _ = hi' := by rw [← Finset.sum_mul, hsum, one_mul]

theorem kernelRadius_one : kernelRadius 1 = 4 := by
  unfold kernelRadius
  have : ⌊(4 * 1 + 1 / 2 : ℝ)⌋ = 4 := by rw [Int.floor_eq_iff]; norm_num
  rw [this]; rfl

/-- **C74** (deviation) With a list of percentiles, smoothing mixes different percentiles of the same bin: for one
energy bin with the values 0 and 1, percentiles [0, 100] and `smoothing=1`, the table has a single row [0, 1], so
averaging over energy bins would leave it unchanged, but the code's cut for percentile 0 becomes > 0. -/
theorem C74_smooths_over_percentiles :
    ∃ (evs : List (FV ℝ × FV ℝ)) (bins : List (FV ℝ)) (ps : List ℝ) (t t' : CutTable ℝ (List (FV ℝ))),
      bins.length = 2 ∧
      percentileCutsSmoothed evs bins (.fin 0) ps none none none 1 = .ok t ∧
      percentileCutsSmoothed evs bins (.fin 0) ps none none (some 1) 1 = .ok t' ∧
      t.cut = [[.fin 0, .fin 1]] ∧ ∃ z z' : ℝ, t'.cut = [[.fin z, .fin z']] ∧ 0 < z := by
  have hinc : Increasing ([.fin 0, .fin 1] : List (FV ℝ)) := ⟨by simp, by norm_num [FV.le]⟩
  have hm : ∀ g : List (FV ℝ), ([(0:ℝ), 100].mapM fun p => Np.nanpercentile g p)
      = .ok ([(0:ℝ), 100].map fun p => pctVal p g) :=
    fun g => mapM_ok _ (fun p => pctVal p g) _ (fun p hp => nanpercentile_eq
      (by rcases List.mem_cons.mp hp with rfl | h
          · norm_num
          · rw [List.mem_singleton.mp h]; norm_num)
      (by rcases List.mem_cons.mp hp with rfl | h
          · norm_num
          · rw [List.mem_singleton.mp h]) g)
  set evs : List (FV ℝ × FV ℝ) := [(.fin 0, .fin (1/2)), (.fin 1, .fin (1/2))] with hevs
  have hgr : group [.fin 0, .fin 1] evs 0 = [.fin 0, .fin 1] := by
    have : InBin ([.fin 0, .fin 1] : List (FV ℝ)) 0 (.fin (1/2)) := ⟨by simp, by norm_num [FV.le], by norm_num [FV.lt]⟩
    unfold group
    simp only [hevs, List.filter_cons, this, decide_true, if_true, List.filter_nil, List.map_cons, List.map_nil]
  have hv : ([(0:ℝ), 100].map fun p => pctVal p ([.fin 0, .fin 1] : List (FV ℝ))) = [.fin 0, .fin 1] := by
    have hsrt : ([0, 1] : List ℝ).insertionSort (· ≤ ·) = [0, 1] := by
      simp [List.insertionSort, List.orderedInsert]
    have hd : Np.dropNan ([.fin 0, .fin 1] : List (FV ℝ)) = [0, 1] := rfl
    have hni : Np.NoInf ([.fin 0, .fin 1] : List (FV ℝ)) := by intro v hv; simp at hv; rcases hv with rfl | rfl <;> simp
    simp only [List.map_cons, List.map_nil]
    rw [pctVal_noInf (by norm_num) (by norm_num) hni, pctVal_noInf (by norm_num) (by norm_num) hni]
    rw [hd, hsrt, if_neg (by simp), if_neg (by simp)]
    simp only [Np.quantileSorted]
    norm_num
  have hcut := cutTable_eq _ (fun g => [(0:ℝ), 100].map fun p => pctVal p g)
    (fun vs => vs.map (clipOpt (none : Option (FV ℝ)) none)) ([(0:ℝ), 100].map fun _ => FV.fin 0) 1 evs hinc
    (by simp) hm ⟨(.fin 0, .fin (1/2)), by simp [hevs], 0, by simp, by norm_num [FV.le], by norm_num [FV.lt]⟩
  have hcell : (List.range (([.fin 0, .fin 1] : List (FV ℝ)).length - 1)).map (fun i =>
          if group [.fin 0, .fin 1] evs i = [] ∨ ((group [.fin 0, .fin 1] evs i).length : ℤ) < 1
          then ([(0:ℝ), 100].map fun _ => FV.fin 0)
          else ([(0:ℝ), 100].map fun p => pctVal p (group [.fin 0, .fin 1] evs i)).map
            (clipOpt (none : Option (FV ℝ)) none)) = [[.fin 0, .fin 1]] := by
    have : List.range (([.fin 0, .fin 1] : List (FV ℝ)).length - 1) = [0] := rfl
    rw [this]
    simp only [List.map_cons, List.map_nil] at hv
    simp only [List.map_cons, List.map_nil, hgr]
    rw [if_neg (by simp)]
    simp only [List.cons.injEq] at hv
    rw [hv.1, hv.2.1]
    rfl
  obtain ⟨T, hT, hTc⟩ : ∃ T, percentileCuts evs [.fin 0, .fin 1] (.fin 0) [0, 100] none none 1 = .ok T ∧
      T.cut = [[.fin 0, .fin 1]] := ⟨_, hcut, hcell⟩
  refine ⟨evs, [.fin 0, .fin 1], [0, 100], T, { T with cut := T.cut.map (gaussianFilter1d 1) }, rfl, ?_, ?_, hTc, ?_⟩
  · unfold percentileCutsSmoothed; rw [hT]
  · unfold percentileCutsSmoothed; rw [hT]
  · simp only [hTc]
    have h01 : ([.fin 0, .fin 1] : List (FV ℝ)) = ([0, 1] : List ℝ).map FV.fin := rfl
    simp only [List.map_cons, List.map_nil]
    rw [h01, gaussianFilter1d_fin]
    have : List.range ([0, 1] : List ℝ).length = [0, 1] := rfl
    rw [this]
    refine ⟨_, _, rfl, ?_⟩
    rw [kernelRadius_one]
    have hk := gaussKernel_pos 1
    simp only [Finset.sum_range_succ, Finset.sum_range_zero]
    norm_num
    have h5 := hk 5; have h6 := hk 6; have h7 := hk 7; have h8 := hk 8
    linarith

/-- example edges -/
def B2 : List (FV ℝ) := [.fin 0, .fin 2, .fin 4]
/-- example events -/
def E2 : List (FV ℝ × FV ℝ) := [(.fin 3, .fin 1), (.fin 4, .fin 3)]

/-- Satisfiability of the C13 hypotheses: a table with two finite cuts (3 and 4) inside bounds 3 and 4. -/
example : ∃ t : CutTable ℝ (FV ℝ), percentileCutSmoothed E2
      B2 (.fin 0) 50 none none none 1 = .ok t ∧ t.cut.length = 2 ∧
    ∃ ys : List ℝ, t.cut = ys.map FV.fin := by
  have hinc : Increasing B2 := ⟨by simp [B2], by norm_num [FV.le, B2]⟩
  unfold percentileCutSmoothed
  rw [percentileCut_eq _ _ _ _ _ hinc (by simp [B2]) (by norm_num) (by norm_num)
    ⟨(.fin 3, .fin 1), by simp [E2], 0, by simp [B2], by norm_num [FV.le, B2], by norm_num [FV.lt, B2]⟩]
  refine ⟨_, rfl, by simp [B2], ?_⟩
  have key : ∀ l : List ℕ, ∃ ys : List ℝ, l.map (fun i =>
      if group B2 E2 i = [] ∨
        ((group B2 E2 i).length : ℤ) < 1 then FV.fin 0
      else clipOpt none none (pctVal 50 (group B2 E2 i)))
        = ys.map FV.fin := by
    intro l
    induction l with
    | nil => exact ⟨[], rfl⟩
    | cons i l ih =>
      obtain ⟨ys, e⟩ := ih
      have : ∃ y : ℝ, (if group B2 E2 i = [] ∨
        ((group B2 E2 i).length : ℤ) < 1 then FV.fin (0:ℝ)
      else clipOpt none none (pctVal 50 (group B2 E2 i)))
        = FV.fin y := by
        split
        · exact ⟨0, rfl⟩
        · rename_i hne
          have : Np.dropNan (group B2 E2 i) ≠ [] := by
            intro hd
            apply hne
            left
            unfold group at hd ⊢
            by_cases c1 : InBin B2 i (.fin 1) <;>
            by_cases c2 : InBin B2 i (.fin 3) <;>
            simp_all [Np.dropNan, E2]
          have hni : Np.NoInf (group B2 E2 i) := noInf_group fun e he => by
            have := (List.mem_filter.mp he).1
            simp only [E2, List.mem_cons, List.not_mem_nil, or_false] at this
            rcases this with rfl | rfl <;> simp
          rw [pctVal_noInf (by norm_num) (by norm_num) hni, if_neg this]
          exact ⟨_, rfl⟩
      obtain ⟨y, ey⟩ := this
      exact ⟨y :: ys, by rw [List.map_cons, List.map_cons, ey, e]⟩
  exact key _

end Pyirf.Cuts
