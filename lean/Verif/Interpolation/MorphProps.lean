import Verif.Interpolation.MorphLemmas
import Mathlib.Tactic.FinCases
import Mathlib.Analysis.Real.Pi.Bounds

/-!
# C55-C57, C94, C95: moment morphing

Vocabulary (`MorphLemmas.lean`): `GoodEdges` (strictly increasing, cones within 0..180 degrees), `pdfIntegral` (integral of a binned density over length or
solid angle), `NearlyEmpty` (entries add up to at most 1e-8), `meanOf`, `stdOf`, `heightAt`.
-/
set_option linter.unusedSectionVars false
set_option linter.unusedSimpArgs false

namespace Pyirf.Interpolation
open Pyirf Pyirf.Np
open scoped Real

/-- The moment morph formula (equations 11-18 of Baak et al. 2015) for histograms: the weighted sum of the templates, each one shifted and stretched to the
interpolated mean and standard deviation. -/
noncomputable def morphDensity {k n : ℕ} (norm : Normalization) (edges : Fin (n + 2) → ℝ) (p : Fin k → Fin (n + 1) → ℝ) (c : Fin k → ℝ) (b : Fin (n + 1)) : ℝ :=
  let mean' := ∑ j, c j * meanOf norm edges (p j)
  let std' := ∑ j, c j * stdOf norm edges (p j)
  ∑ j, c j * (stdOf norm edges (p j) / std') * heightAt edges (p j) (meanOf norm edges (p j) + stdOf norm edges (p j) / std' * (middle edges b - mean'))

theorem fsum_ofFn {k : ℕ} (f : Fin k → ℝ) : fsum (List.ofFn fun j => .fin (f j)) = .fin (∑ j, f j) := by
  have : (List.ofFn fun j => (FV.fin (f j))) = (List.ofFn f).map .fin := by rw [List.map_ofFn]; rfl
  rw [this, fsum_fin, List.sum_ofFn]

theorem fsum_nan {l : List (FV ℝ)} (h : FV.nan ∈ l) : fsum l = .nan := by
  unfold fsum
  induction l with
  | nil => simp at h
  | cons a l ih =>
    rw [List.foldr_cons]
    rcases List.mem_cons.mp h with rfl | h'
    · simp
    · rw [ih h']; simp

theorem zeroCell_iff {k n : ℕ} {C : Type*} (pdf : Fin k → C → Fin (n + 1) → ℝ) (c : C) : ZeroCell pdf c ↔ ∃ j, NearlyEmpty (pdf j c) := by
  unfold ZeroCell NearlyEmpty isclose5 isclose
  simp

theorem exists_ne_zero {n : ℕ} {p : Fin (n + 1) → ℝ} (h : ¬ NearlyEmpty p) : ∃ b, p b ≠ 0 := by
  by_contra hc
  push Not at hc
  apply h
  unfold NearlyEmpty
  simp only [hc, Finset.sum_const_zero, abs_zero]
  norm_num

theorem renormalize_fin {n : ℕ} (norm : Normalization) (edges : Fin (n + 2) → ℝ) (F : Fin (n + 1) → ℝ) (f : Fin (n + 1) → FV ℝ) (hf : ∀ b, f b = .fin (F b)) (b : Fin (n + 1)) :
    renormalize norm edges f b = .fin (if pdfIntegral norm edges F = 0 then 0 else F b / pdfIntegral norm edges F) := by
  obtain rfl : f = fun b => .fin (F b) := funext hf
  unfold renormalize
  simp only [FV.fin_mul_fin, fsum_ofFn]
  have hs : (∑ b, F b * binWidth norm edges b) = pdfIntegral norm edges F := by unfold pdfIntegral; simp only [binWidth_eq]
  rw [hs]
  by_cases h : pdfIntegral norm edges F = 0
  · rw [if_pos h, h]; simp [FV.bne, FV.beq]
  · rw [if_neg h, if_pos, FV.fin_div_fin _ _ h]
    simp only [FV.bne, Bool.not_eq_true', ← Bool.not_eq_true, FV.beq_iff, FV.fin.injEq]
    tauto

theorem lookup_nonfinite {n : ℕ} {edges : Fin (n + 2) → ℝ} (h : StrictMono edges) (p : Fin (n + 1) → ℝ) {x : FV ℝ} (hx : x.isFinite = false) : lookup edges p x = 0 := by
  have hinc := edges_increasing h
  have hlen : (edgeList edges).length = n + 2 := by simp [edgeList]
  have hl0 : 0 < (edgeList edges).length := by rw [hlen]; omega
  have hget : ∀ (i : ℕ) (hi : i < n + 2), (edgeList edges)[i]'(by rw [hlen]; exact hi) = .fin (edges ⟨i, hi⟩) := by
    intro i hi; simp only [edgeList, List.getElem_ofFn]
  have hl2 : (edgeList edges)[(edgeList edges).length - 1]'(by rw [hlen]; omega) = .fin (edges (Fin.last _)) := by
    have := hget (n + 1) (by omega)
    simp only [hlen]
    exact this
  unfold lookup
  rw [Binning.calculateBinIndices_increasing hinc [x] (by simp)]
  simp only [List.map_cons, List.map_nil]
  cases x with
  | fin x => simp [FV.isFinite] at hx
  | nan => rw [Binning.binIdx_overflow hinc hl0 _ (Or.inl rfl)]
  | pinf => rw [Binning.binIdx_overflow hinc hl0 _ (Or.inr (by rw [hl2]; rfl))]
  | ninf => rw [Binning.binIdx_underflow hinc hl0 _ (by rw [hget 0 (by omega)]; rfl)]

/-- Everything about `moment_morph_estimation` with finite coefficients. -/
theorem momentMorph_spec {k n : ℕ} {C : Type*} {norm : Normalization} {edges : Fin (n + 2) → ℝ} (he : GoodEdges norm edges) (pdf : Fin k → C → Fin (n + 1) → ℝ)
    (hp : ∀ j c b, 0 ≤ pdf j c b) (w : Fin k → ℝ) :
    ∃ r, momentMorph norm edges pdf (fun j => .fin (w j)) = .ok r ∧ ∀ c,
      ((∃ j, NearlyEmpty (pdf j c)) → ∀ b, r c b = .fin 0) ∧
      ((∀ j, ¬ NearlyEmpty (pdf j c)) → ∑ j, w j * stdOf norm edges (pdf j c) ≠ 0 →
        ∀ b, r c b = .fin (if pdfIntegral norm edges (morphDensity norm edges (fun j => pdf j c) w) = 0 then 0
          else morphDensity norm edges (fun j => pdf j c) w b / pdfIntegral norm edges (morphDensity norm edges (fun j => pdf j c) w))) ∧
      ((∀ j, ¬ NearlyEmpty (pdf j c)) → 0 < k → ∑ j, w j * stdOf norm edges (pdf j c) = 0 → ∀ b, r c b = .nan) := by
  classical
  have hn : (0 : ℝ) < 1 / ((n : ℝ) + 1) := by positivity
  have hgood : ∀ j c, (∀ b, 0 ≤ (if ZeroCell pdf c then 1 / ((n : ℝ) + 1) else pdf j c b)) ∧ ∃ b, (if ZeroCell pdf c then 1 / ((n : ℝ) + 1) else pdf j c b) ≠ 0 := by
    intro j c
    by_cases hz : ZeroCell pdf c
    · simp only [if_pos hz]; exact ⟨fun _ => hn.le, ⟨0, hn.ne'⟩⟩
    · simp only [if_neg hz]
      refine ⟨hp j c, exists_ne_zero fun hc => hz ((zeroCell_iff pdf c).mpr ⟨j, hc⟩)⟩
  have hr : momentMorph norm edges pdf (fun j => .fin (w j)) = .ok (fun c => renormalize norm edges fun b =>
      if ZeroCell pdf c then .fin 0
      else morphed edges (fun j b => if ZeroCell pdf c then 1 / ((n : ℝ) + 1) else pdf j c b) (fun j => .fin (w j))
        (fun j => pdfMean norm edges (fun b => if ZeroCell pdf c then 1 / ((n : ℝ) + 1) else pdf j c b))
        (fun j => okOr .nan (pdfStd norm edges (fun b => if ZeroCell pdf c then 1 / ((n : ℝ) + 1) else pdf j c b))) b) := by
    unfold momentMorph
    simp only []
    rw [if_neg, if_neg, if_neg]
    · rw [(edges_increasing he.strict).monotonicity]; norm_num
    · rintro ⟨j, c, hc⟩
      have := (pdfStd_eq he (hgood j c).1 (hgood j c).2).1
      cases hc.symm.trans this
    · rintro ⟨j, c, hc⟩
      rw [pdfScale_eq] at hc
      have := (pdfIntegral_pos he (hgood j c).1 (hgood j c).2).ne'
      exact this hc
  refine ⟨_, hr, ?_⟩
  intro c
  refine ⟨?_, ?_, ?_⟩
  · intro hz b
    simp only [if_pos ((zeroCell_iff pdf c).mpr hz)]
    rw [renormalize_fin norm edges (fun _ => 0) _ (fun _ => rfl) b]
    simp [pdfIntegral]
  · intro hz hs b
    have hz' : ¬ ZeroCell pdf c := by rw [zeroCell_iff]; push Not; exact hz
    simp only [if_neg hz']
    refine renormalize_fin norm edges (morphDensity norm edges (fun j => pdf j c) w) _ (fun b => ?_) b
    have hstd : ∀ j, okOr .nan (pdfStd norm edges (pdf j c)) = .fin (stdOf norm edges (pdf j c)) := by
      intro j; rw [(pdfStd_eq he (hp j c) (exists_ne_zero (hz j))).1]; rfl
    unfold morphed
    simp only [hstd, pdfMean_eq, FV.fin_mul_fin, fsum_ofFn, FV.fin_div_fin _ _ hs, FV.fin_sub_fin, FV.fin_add_fin, lookup_eq he.strict, binMid_eq]
    congr 1
    unfold morphDensity
    refine Finset.sum_congr rfl fun j _ => ?_
    rw [mul_right_comm]
    congr 2
    ring
  · intro hz hk hs b
    have hz' : ¬ ZeroCell pdf c := by rw [zeroCell_iff]; push Not; exact hz
    simp only [if_neg hz']
    have hstd : ∀ j, okOr .nan (pdfStd norm edges (pdf j c)) = .fin (stdOf norm edges (pdf j c)) := by
      intro j; rw [(pdfStd_eq he (hp j c) (exists_ne_zero (hz j))).1]; rfl
    have hnan : ∀ b, morphed edges (fun j => pdf j c) (fun j => .fin (w j)) (fun j => pdfMean norm edges (pdf j c)) (fun j => okOr .nan (pdfStd norm edges (pdf j c))) b = .nan := by
      intro b
      unfold morphed
      simp only [hstd, FV.fin_mul_fin, fsum_ofFn, hs]
      apply fsum_nan
      rw [List.mem_ofFn]
      refine ⟨⟨0, hk⟩, ?_⟩
      rw [FV.fin_div_zero, FV.infSign_pos (pdfStd_eq he (hp _ c) (exists_ne_zero (hz _))).2]
      rw [lookup_nonfinite he.strict]
      · simp only [mul_zero]
        show FV.infSign (0 : ℝ) = .nan
        simp
      · generalize (∑ j, w j * pdfMean norm edges (pdf j c)) = M
        generalize binMid edges b = m
        have h1 : (FV.pinf * FV.fin m : FV ℝ) = FV.infSign m := rfl
        have h2 : (FV.fin M * FV.pinf : FV ℝ) = FV.infSign M := rfl
        rw [h1, h2]
        unfold FV.infSign
        split_ifs <;> rfl
    unfold renormalize
    simp only [hnan]
    rw [fsum_nan (by rw [List.mem_ofFn]; exact ⟨b, by simp⟩)]
    simp [FV.bne, FV.beq]

/-! ## C55 -/

/-- What is promised about one cell of the result: zero entries, or nonnegative finite entries that integrate to one. -/
def IsPdfOrZero {n : ℕ} (norm : Normalization) (edges : Fin (n + 2) → ℝ) (r : Fin (n + 1) → FV ℝ) : Prop :=
  ∃ g : Fin (n + 1) → ℝ, (∀ b, r b = .fin (g b)) ∧ (∀ b, 0 ≤ g b) ∧ (pdfIntegral norm edges g = 1 ∨ ∀ b, g b = 0)

theorem heightAt_nonneg {n : ℕ} (edges : Fin (n + 2) → ℝ) {p : Fin (n + 1) → ℝ} (hp : ∀ b, 0 ≤ p b) (x : ℝ) : 0 ≤ heightAt edges p x := by
  unfold heightAt; split
  · exact hp _
  · exact le_rfl

theorem pdfIntegral_div {n : ℕ} (norm : Normalization) (edges : Fin (n + 2) → ℝ) (F : Fin (n + 1) → ℝ) (h : pdfIntegral norm edges F ≠ 0) :
    pdfIntegral norm edges (fun b => F b / pdfIntegral norm edges F) = 1 := by
  have : pdfIntegral norm edges (fun b => F b / pdfIntegral norm edges F) = pdfIntegral norm edges F / pdfIntegral norm edges F := by
    conv_lhs => unfold pdfIntegral
    rw [Finset.sum_congr rfl (fun b _ => (div_mul_eq_mul_div (F b) _ _)), ← Finset.sum_div]
    rfl
  rw [this, div_self h]

theorem isPdf_of_nonneg {n : ℕ} {norm : Normalization} {edges : Fin (n + 2) → ℝ} (he : GoodEdges norm edges) {F : Fin (n + 1) → ℝ} (hF : ∀ b, 0 ≤ F b) {r : Fin (n + 1) → FV ℝ}
    (hr : ∀ b, r b = .fin (if pdfIntegral norm edges F = 0 then 0 else F b / pdfIntegral norm edges F)) : IsPdfOrZero norm edges r := by
  refine ⟨_, hr, ?_, ?_⟩
  · intro b
    split
    · exact le_rfl
    · exact div_nonneg (hF b) (Finset.sum_nonneg fun i _ => mul_nonneg (hF i) (by rw [← binWidth_eq]; exact (binWidth_pos he i).le))
  · by_cases h : pdfIntegral norm edges F = 0
    · right; intro b; rw [if_pos h]
    · left
      simp only [if_neg h]
      exact pdfIntegral_div norm edges F h

/-- With nonnegative coefficients that add up to one, the interpolated standard deviation is positive. -/
theorem std_pos {k n : ℕ} {norm : Normalization} {edges : Fin (n + 2) → ℝ} (he : GoodEdges norm edges) {p : Fin k → Fin (n + 1) → ℝ} (hp : ∀ j b, 0 ≤ p j b)
    (hne : ∀ j, ¬ NearlyEmpty (p j)) {w : Fin k → ℝ} (hw : ∀ j, 0 ≤ w j) (hw1 : ∑ j, w j = 1) : 0 < ∑ j, w j * stdOf norm edges (p j) := by
  obtain ⟨j, hj⟩ : ∃ j, 0 < w j := by
    by_contra hc
    push Not at hc
    have : ∑ j, w j = 0 := Finset.sum_eq_zero fun j _ => le_antisymm (hc j) (hw j)
    rw [this] at hw1; norm_num at hw1
  have hs : ∀ j, 0 < stdOf norm edges (p j) := fun j => (pdfStd_eq he (hp j) (exists_ne_zero (hne j))).2
  exact Finset.sum_pos' (fun i _ => mul_nonneg (hw i) (hs i).le) ⟨j, Finset.mem_univ _, mul_pos hj (hs j)⟩

/-- **C55** With nonnegative coefficients that add up to one, moment morphing succeeds; in every cell the result is all zero if a template is (nearly) empty,
and otherwise it is the moment morph formula divided by its integral (all zero if that is zero): nonnegative and, unless all zero, integrating to one. -/
theorem C55_moment_morph {k n : ℕ} {C : Type*} {norm : Normalization} {edges : Fin (n + 2) → ℝ} (he : GoodEdges norm edges) (pdf : Fin k → C → Fin (n + 1) → ℝ)
    (hp : ∀ j c b, 0 ≤ pdf j c b) (w : Fin k → ℝ) (hw : ∀ j, 0 ≤ w j) (hw1 : ∑ j, w j = 1) :
    ∃ r, momentMorph norm edges pdf (fun j => .fin (w j)) = .ok r ∧ ∀ c, IsPdfOrZero norm edges (r c) ∧
      ((∃ j, NearlyEmpty (pdf j c)) → ∀ b, r c b = .fin 0) ∧
      ((∀ j, ¬ NearlyEmpty (pdf j c)) → ∀ b, r c b = .fin (if pdfIntegral norm edges (morphDensity norm edges (fun j => pdf j c) w) = 0 then 0
          else morphDensity norm edges (fun j => pdf j c) w b / pdfIntegral norm edges (morphDensity norm edges (fun j => pdf j c) w))) := by
  obtain ⟨r, hr, hc⟩ := momentMorph_spec he pdf hp w
  refine ⟨r, hr, fun c => ?_⟩
  obtain ⟨h1, h2, -⟩ := hc c
  have h2' : (∀ j, ¬ NearlyEmpty (pdf j c)) → _ := fun hz => h2 hz (std_pos he (fun j b => hp j c b) hz hw hw1).ne'
  refine ⟨?_, h1, h2'⟩
  by_cases hz : ∃ j, NearlyEmpty (pdf j c)
  · exact ⟨fun _ => 0, h1 hz, fun _ => le_rfl, Or.inr fun _ => rfl⟩
  · push Not at hz
    refine isPdf_of_nonneg he (fun b => ?_) (h2' hz)
    refine Finset.sum_nonneg fun j _ => ?_
    refine mul_nonneg (mul_nonneg (hw j) (div_nonneg ?_ (std_pos he (fun j b => hp j c b) hz hw hw1).le)) (heightAt_nonneg edges (hp j c) _)
    exact (pdfStd_eq he (hp j c) (exists_ne_zero (hz j))).2.le

/-- The segment of a sorted grid that is used for a target below the largest grid point. -/
theorem morph1D_eq {n : ℕ} {C : Type*} (norm : Normalization) (edges : Fin (n + 2) → ℝ) (grid : List ℝ) (hs : grid.Pairwise (· < ·)) (pdf : Fin grid.length → C → Fin (n + 1) → ℝ)
    (t : ℝ) (i : ℕ) (hi : i + 1 < grid.length) (h1 : grid[i] ≤ t) (h2 : t < grid[i + 1]) :
    morphInterpolate1D norm edges grid pdf t =
      momentMorph norm edges (fun j => pdf (![⟨i, by omega⟩, ⟨i + 1, hi⟩] j))
        (fun j => .fin (![1 - (t - grid[i]) / (grid[i + 1] - grid[i]), (t - grid[i]) / (grid[i + 1] - grid[i])] j)) := by
  have hinc : Increasing (grid.map FV.fin) := by
    refine ⟨by simp, ?_⟩
    rw [List.pairwise_map]
    exact hs.imp fun h => by simpa using h.le
  have hd : Np.digitize (grid.map FV.fin) (.fin t) = .ok (i + 1) := by
    rw [digitize_increasing hinc]
    have ha := (lt_searchsortedRight hinc (.fin t) i (by simp; omega)).mpr (Or.inr (by simpa using h1))
    have hb : ¬ (i + 1 < Np.searchsortedRight (grid.map FV.fin) (.fin t)) := by
      intro hc
      have := (lt_searchsortedRight hinc (.fin t) (i + 1) (by simpa using hi)).mp hc
      simp at this
      linarith
    congr 1; omega
  unfold morphInterpolate1D
  rw [if_neg (by omega), hd]
  simp only
  rw [dif_pos hi]
  have hne : grid[i] ≠ grid[i + 1] := (List.pairwise_iff_getElem.mp hs i (i + 1) (by omega) hi (by omega)).ne
  have hinds : (![(⟨if i + 1 = 0 then grid.length - 1 else i + 1 - 1, by split <;> omega⟩ : Fin grid.length), ⟨i + 1, hi⟩] : Fin 2 → Fin grid.length) = ![⟨i, by omega⟩, ⟨i + 1, hi⟩] := by
    funext j; fin_cases j <;> simp
  simp only [hinds]
  rw [linesegment_eq _ _ (by simpa using hne)]
  simp

/-- **C55** One dimension: a target between two neighbouring points of a sorted grid, nonnegative templates. -/
theorem C55_interpolate_1d {n : ℕ} {C : Type*} {norm : Normalization} {edges : Fin (n + 2) → ℝ} (he : GoodEdges norm edges) (grid : List ℝ) (hs : grid.Pairwise (· < ·))
    (pdf : Fin grid.length → C → Fin (n + 1) → ℝ) (hp : ∀ j c b, 0 ≤ pdf j c b) (t : ℝ) (i : ℕ) (hi : i + 1 < grid.length) (h1 : grid[i] ≤ t) (h2 : t < grid[i + 1]) :
    ∃ r, morphInterpolate1D norm edges grid pdf t = .ok r ∧ ∀ c, IsPdfOrZero norm edges (r c) ∧
      (NearlyEmpty (pdf ⟨i, by omega⟩ c) ∨ NearlyEmpty (pdf ⟨i + 1, hi⟩ c) → ∀ b, r c b = .fin 0) := by
  rw [morph1D_eq norm edges grid hs pdf t i hi h1 h2]
  have hpos : 0 < grid[i + 1] - grid[i] := by linarith
  have hd : (t - grid[i]) / (grid[i + 1] - grid[i]) ≤ 1 := by rw [div_le_one hpos]; linarith
  have hd0 : 0 ≤ (t - grid[i]) / (grid[i + 1] - grid[i]) := div_nonneg (by linarith) hpos.le
  obtain ⟨r, hr, hc⟩ := C55_moment_morph he (fun j => pdf (![⟨i, by omega⟩, ⟨i + 1, hi⟩] j)) (fun j c b => hp _ c b)
    ![1 - (t - grid[i]) / (grid[i + 1] - grid[i]), (t - grid[i]) / (grid[i + 1] - grid[i])]
    (by intro j; fin_cases j
        · simp; linarith
        · simpa using hd0) (by simp)
  refine ⟨r, hr, fun c => ⟨(hc c).1, ?_⟩⟩
  rintro (hz | hz)
  · exact (hc c).2.1 ⟨0, hz⟩
  · exact (hc c).2.1 ⟨1, hz⟩

/-- **C55** Two dimensions: `found` is a (non-degenerate) simplex that contains the target. -/
theorem C55_interpolate_2d {n : ℕ} {C : Type*} {norm : Normalization} {edges : Fin (n + 2) → ℝ} (he : GoodEdges norm edges) (T : Triangulation)
    (pdf : Fin T.points.length → C → Fin (n + 1) → ℝ) (hp : ∀ j c b, 0 ≤ pdf j c b) (found : ℕ) (hf : found < T.simplices.length) (hnd : NonDegenerate T T.simplices[found])
    (t : Pt 0) (hin : InTriangle (fun i => toPair T.points[T.simplices[found] i]) (toPair t)) :
    ∃ r, morphInterpolate2D norm edges T pdf found t = .ok r ∧ ∀ c, IsPdfOrZero norm edges (r c) ∧
      ((∃ i, NearlyEmpty (pdf (T.simplices[found] i) c)) → ∀ b, r c b = .fin 0) := by
  obtain ⟨w, hw, hw1, hwt, hwu, -, hin'⟩ := C50_barycentric _ (toPair t) hnd
  unfold morphInterpolate2D
  rw [if_neg (by omega), Int.toNat_natCast, List.getElem?_eq_getElem hf]
  simp only [morphSimplex]
  rw [hw]
  obtain ⟨r, hr, hc⟩ := C55_moment_morph he (fun j => pdf (T.simplices[found] j)) (fun j c b => hp _ c b) w (hin'.mpr hin) hw1
  exact ⟨r, hr, fun c => ⟨(hc c).1, (hc c).2.1⟩⟩

/-! ## C56 -/

/-- morphing with the coefficients of a vertex -/
theorem morph_vertex {k n : ℕ} {C : Type*} {norm : Normalization} {edges : Fin (n + 2) → ℝ} (he : GoodEdges norm edges) (pdf : Fin k → C → Fin (n + 1) → ℝ)
    (hp : ∀ j c b, 0 ≤ pdf j c b) (v : Fin k) :
    ∃ r, momentMorph norm edges pdf (fun j => .fin ((Pi.single v 1 : Fin k → ℝ) j)) = .ok r ∧ ∀ c, (∀ j, ¬ NearlyEmpty (pdf j c)) →
      ∀ b, r c b = .fin (pdf v c b / pdfIntegral norm edges (pdf v c)) := by
  obtain ⟨r, hr, hc⟩ := momentMorph_spec he pdf hp (Pi.single v 1)
  refine ⟨r, hr, fun c hz b => ?_⟩
  have hsum : ∀ f : Fin k → ℝ, ∑ j, (Pi.single v 1 : Fin k → ℝ) j * f j = f v := by
    intro f
    rw [Finset.sum_eq_single v]
    · simp
    · intro j _ hj; simp [Pi.single_eq_of_ne hj]
    · simp
  have hpos := (pdfStd_eq he (hp v c) (exists_ne_zero (hz v))).2
  have hF : morphDensity norm edges (fun j => pdf j c) (Pi.single v 1) = pdf v c := by
    funext b
    unfold morphDensity
    simp only [hsum, mul_assoc]
    rw [div_self hpos.ne']
    have : meanOf norm edges (pdf v c) + 1 * (middle edges b - meanOf norm edges (pdf v c)) = middle edges b := by ring
    rw [this, one_mul]
    have hlt : edges b.castSucc < edges b.succ := he.strict Fin.castSucc_lt_succ
    exact heightAt_of he.strict _ (by unfold middle; linarith) (by unfold middle; linarith)
  have := (hc c).2.1 hz (by rw [hsum]; exact hpos.ne') b
  rw [this, hF, if_neg (pdfIntegral_pos he (hp v c) (exists_ne_zero (hz v))).ne']

/-- **C56** One dimension: at every point of a sorted grid but the largest one, a normalized template is reproduced (in every cell in which neither it nor the
next one is nearly empty). -/
theorem C56_grid_point_1d {n : ℕ} {C : Type*} {norm : Normalization} {edges : Fin (n + 2) → ℝ} (he : GoodEdges norm edges) (grid : List ℝ) (hs : grid.Pairwise (· < ·))
    (pdf : Fin grid.length → C → Fin (n + 1) → ℝ) (hp : ∀ j c b, 0 ≤ pdf j c b) (i : ℕ) (hi : i + 1 < grid.length) :
    ∃ r, morphInterpolate1D norm edges grid pdf grid[i] = .ok r ∧ ∀ c, pdfIntegral norm edges (pdf ⟨i, by omega⟩ c) = 1 → ¬ NearlyEmpty (pdf ⟨i, by omega⟩ c) →
      ¬ NearlyEmpty (pdf ⟨i + 1, hi⟩ c) → ∀ b, r c b = .fin (pdf ⟨i, by omega⟩ c b) := by
  have hlt : grid[i] < grid[i + 1] := List.pairwise_iff_getElem.mp hs i (i + 1) (by omega) hi (by omega)
  rw [morph1D_eq norm edges grid hs pdf _ i hi le_rfl hlt]
  have hw : (![1 - (grid[i] - grid[i]) / (grid[i + 1] - grid[i]), (grid[i] - grid[i]) / (grid[i + 1] - grid[i])] : Fin 2 → ℝ) = Pi.single 0 1 := by
    funext j; fin_cases j <;> simp
  rw [hw]
  obtain ⟨r, hr, hc⟩ := morph_vertex he (fun j => pdf (![⟨i, by omega⟩, ⟨i + 1, hi⟩] j)) (fun j c b => hp _ c b) 0
  refine ⟨r, hr, fun c h1 h2 h3 b => ?_⟩
  have := hc c (by intro j; fin_cases j <;> assumption) b
  simp only [Matrix.cons_val_zero] at this
  rw [this, h1, div_one]

/-- **C56** Two dimensions: at a vertex of the simplex found, the vertex' normalized template is reproduced (in every cell in which no template of the simplex is
nearly empty). -/
theorem C56_grid_point_2d {n : ℕ} {C : Type*} {norm : Normalization} {edges : Fin (n + 2) → ℝ} (he : GoodEdges norm edges) (T : Triangulation)
    (pdf : Fin T.points.length → C → Fin (n + 1) → ℝ) (hp : ∀ j c b, 0 ≤ pdf j c b) (found : ℕ) (hf : found < T.simplices.length) (hnd : NonDegenerate T T.simplices[found])
    (v : Fin 3) :
    ∃ r, morphInterpolate2D norm edges T pdf found T.points[T.simplices[found] v] = .ok r ∧ ∀ c, pdfIntegral norm edges (pdf (T.simplices[found] v) c) = 1 →
      (∀ i, ¬ NearlyEmpty (pdf (T.simplices[found] i) c)) → ∀ b, r c b = .fin (pdf (T.simplices[found] v) c b) := by
  obtain ⟨w, hw, hw1, hwt, hwu, hv, -⟩ := C50_barycentric _ (toPair T.points[T.simplices[found] v]) hnd
  unfold morphInterpolate2D
  rw [if_neg (by omega), Int.toNat_natCast, List.getElem?_eq_getElem hf]
  simp only [morphSimplex]
  rw [hw, hv v rfl]
  obtain ⟨r, hr, hc⟩ := morph_vertex he (fun j => pdf (T.simplices[found] j)) (fun j c b => hp _ c b) v
  refine ⟨r, hr, fun c h1 h2 b => ?_⟩
  rw [hc c h2 b, h1, div_one]

/-! ## C94 -/

/-- **C94** At the largest grid point of every sorted one-dimensional grid the interpolation raises IndexError, whatever the templates are. -/
theorem C94_largest_grid_point {n : ℕ} {C : Type*} (norm : Normalization) (edges : Fin (n + 2) → ℝ) (grid : List ℝ) (hs : grid.Pairwise (· < ·))
    (pdf : Fin grid.length → C → Fin (n + 1) → ℝ) (hl : 2 ≤ grid.length) :
    morphInterpolate1D norm edges grid pdf grid[grid.length - 1] = .error .indexError := by
  have hinc : Increasing (grid.map FV.fin) := by
    refine ⟨by simp, ?_⟩
    rw [List.pairwise_map]
    exact hs.imp fun h => by simpa using h.le
  have hd : Np.digitize (grid.map FV.fin) (.fin grid[grid.length - 1]) = .ok grid.length := by
    rw [digitize_increasing hinc]
    have ha := (lt_searchsortedRight hinc (.fin grid[grid.length - 1]) (grid.length - 1) (by simp; omega)).mpr (Or.inr (by simp))
    have hb := searchsortedRight_le (grid.map FV.fin) (.fin grid[grid.length - 1])
    rw [List.length_map] at hb
    congr 1; omega
  unfold morphInterpolate1D
  rw [if_neg (by omega), hd]
  simp

/-- **C94** At all other grid points, and everywhere between grid points, the interpolation succeeds. -/
theorem C94_other_points {n : ℕ} {C : Type*} {norm : Normalization} {edges : Fin (n + 2) → ℝ} (he : GoodEdges norm edges) (grid : List ℝ) (hs : grid.Pairwise (· < ·))
    (pdf : Fin grid.length → C → Fin (n + 1) → ℝ) (hp : ∀ j c b, 0 ≤ pdf j c b) (t : ℝ) (hl : 2 ≤ grid.length) (h1 : grid[0] ≤ t) (h2 : t < grid[grid.length - 1]) :
    ∃ r, morphInterpolate1D norm edges grid pdf t = .ok r := by
  have : ∀ m (hm : m < grid.length), t < grid[m] → ∃ i, ∃ hi : i + 1 < grid.length, grid[i] ≤ t ∧ t < grid[i + 1] := by
    intro m
    induction m with
    | zero => intro hm hlt; linarith
    | succ m ih =>
      intro hm hlt
      rcases lt_or_ge t grid[m] with h | h
      · exact ih (by omega) h
      · exact ⟨m, hm, h, hlt⟩
  obtain ⟨i, hi, ha, hb⟩ := this _ (by omega) h2
  obtain ⟨r, hr, -⟩ := C55_interpolate_1d he grid hs pdf hp t i hi ha hb
  exact ⟨r, hr⟩

/-- **C94** For targets between the smallest and the largest grid point, ends included, the interpolation fails exactly at the largest grid point. -/
theorem C94_fails_iff {n : ℕ} {C : Type*} {norm : Normalization} {edges : Fin (n + 2) → ℝ} (he : GoodEdges norm edges) (grid : List ℝ) (hs : grid.Pairwise (· < ·))
    (pdf : Fin grid.length → C → Fin (n + 1) → ℝ) (hp : ∀ j c b, 0 ≤ pdf j c b) (t : ℝ) (hl : 2 ≤ grid.length) (h1 : grid[0] ≤ t) (h2 : t ≤ grid[grid.length - 1]) :
    ((∃ e, morphInterpolate1D norm edges grid pdf t = .error e) ↔ t = grid[grid.length - 1]) ∧
      ∀ e, morphInterpolate1D norm edges grid pdf t = .error e → e = .indexError := by
  rcases h2.lt_or_eq with h | h
  · obtain ⟨r, hr⟩ := C94_other_points he grid hs pdf hp t hl h1 h
    rw [hr]
    exact ⟨⟨(by rintro ⟨e, he⟩; cases he), fun h' => absurd h' h.ne⟩, by intro e he; cases he⟩
  · have := C94_largest_grid_point norm edges grid hs pdf hl
    rw [← h] at this
    rw [this]
    exact ⟨⟨fun _ => h, fun _ => ⟨_, rfl⟩⟩, by intro e he; cases he; rfl⟩

/-! ## C57 -/

theorem cutOff_spec {n : ℕ} {C : Type*} {norm : Normalization} {edges : Fin (n + 2) → ℝ} (he : GoodEdges norm edges) (r : C → Fin (n + 1) → FV ℝ) (g : C → Fin (n + 1) → ℝ)
    (hr : ∀ c b, r c b = .fin (g c b)) (hg : ∀ c, pdfIntegral norm edges (g c) = 1 ∨ ∀ b, g c b = 0) :
    ∀ c, IsPdfOrZero norm edges ((cutOff norm edges r).1 c) := by
  classical
  intro c
  unfold cutOff
  split
  · rename_i h
    refine ⟨g c, hr c, fun b => ?_, hg c⟩
    have := h c b
    rw [hr] at this
    simpa [FV.ge] using this
  · refine isPdf_of_nonneg he (F := fun b => max (g c b) 0) (fun b => le_max_right _ _) ?_
    intro b
    refine renormalize_fin norm edges _ _ (fun b => ?_) b
    rw [hr]
    by_cases h : g c b < 0
    · rw [max_eq_right h.le]; simp [h]
    · rw [max_eq_left (not_lt.mp h)]; simp [h]

theorem morph_cutOff {k n : ℕ} {C : Type*} {norm : Normalization} {edges : Fin (n + 2) → ℝ} (he : GoodEdges norm edges) (pdf : Fin k → C → Fin (n + 1) → ℝ)
    (hp : ∀ j c b, 0 ≤ pdf j c b) (w : Fin k → ℝ) (hstd : ∀ c, (∀ j, ¬ NearlyEmpty (pdf j c)) → ∑ j, w j * stdOf norm edges (pdf j c) ≠ 0) :
    ∃ r, momentMorph norm edges pdf (fun j => .fin (w j)) = .ok r ∧ ∀ c, IsPdfOrZero norm edges ((cutOff norm edges r).1 c) ∧
      ((∃ j, NearlyEmpty (pdf j c)) → ∀ b, (cutOff norm edges r).1 c b = .fin 0) := by
  classical
  obtain ⟨r, hr, hc⟩ := momentMorph_spec he pdf hp w
  have hg : ∀ c, ∃ g : Fin (n + 1) → ℝ, (∀ b, r c b = .fin (g b)) ∧ (pdfIntegral norm edges g = 1 ∨ ∀ b, g b = 0) := by
    intro c
    by_cases hz : ∃ j, NearlyEmpty (pdf j c)
    · exact ⟨fun _ => 0, (hc c).1 hz, Or.inr fun _ => rfl⟩
    · push Not at hz
      refine ⟨_, (hc c).2.1 hz (hstd c hz), ?_⟩
      by_cases h : pdfIntegral norm edges (morphDensity norm edges (fun j => pdf j c) w) = 0
      · right; intro b; rw [if_pos h]
      · left; simp only [if_neg h]; exact pdfIntegral_div _ _ _ h
  choose g hg1 hg2 using hg
  refine ⟨r, hr, fun c => ⟨cutOff_spec he r g hg1 hg2 c, fun hz b => ?_⟩⟩
  have h0 := (hc c).1 hz
  unfold cutOff
  split
  · exact h0 b
  · simp only [h0]
    rw [renormalize_fin norm edges (fun _ => 0) _ (fun b => by simp) b]
    simp [pdfIntegral]

/-- the segment used by the one-dimensional extrapolation -/
theorem extrapolate_eq {n : ℕ} {C : Type*} {norm : Normalization} {edges : Fin (n + 2) → ℝ} (grid : List ℝ) (hs : grid.Pairwise (· < ·))
    (pdf : Fin grid.length → C → Fin (n + 1) → ℝ) (t : ℝ) (i : ℕ) (hi : i + 1 < grid.length)
    (hij : (t < grid[0] ∧ i = 0) ∨ (grid[0] ≤ t ∧ i + 2 = grid.length)) {r : C → Fin (n + 1) → FV ℝ}
    (hr : momentMorph norm edges (fun j => pdf (![⟨i, by omega⟩, ⟨i + 1, hi⟩] j))
        (fun j => .fin (![1 - (t - grid[i]) / (grid[i + 1] - grid[i]), (t - grid[i]) / (grid[i + 1] - grid[i])] j)) = .ok r) :
    morphExtrapolate1D norm edges grid pdf t = .ok ((cutOff norm edges r).1, (cutOff norm edges r).2) := by
  have hlt : grid[i] < grid[i + 1] := List.pairwise_iff_getElem.mp hs i (i + 1) (by omega) hi (by omega)
  have hmin : grid.min? = some grid[0] := by
    rw [List.min?_eq_some_iff]
    refine ⟨List.getElem_mem _, fun b hb => ?_⟩
    obtain ⟨j, hj, rfl⟩ := List.mem_iff_getElem.mp hb
    rcases Nat.eq_zero_or_pos j with h | h
    · subst h; exact le_rfl
    · exact (List.pairwise_iff_getElem.mp hs 0 j (by omega) hj h).le
  unfold morphExtrapolate1D
  rw [hmin]
  simp only
  rw [dif_neg (by omega)]
  have hinds : (if t < grid[0] then (![⟨0, by omega⟩, ⟨1, by omega⟩] : Fin 2 → Fin grid.length) else ![⟨grid.length - 2, by omega⟩, ⟨grid.length - 1, by omega⟩]) =
      ![⟨i, by omega⟩, ⟨i + 1, hi⟩] := by
    rcases hij with ⟨h1, h2⟩ | ⟨h1, h2⟩
    · subst h2; rw [if_pos h1]
    · rw [if_neg (not_lt.mpr h1)]
      funext j
      fin_cases j
      · simp [Fin.ext_iff]; omega
      · simp [Fin.ext_iff]; omega
  simp only [hinds]
  rw [linesegment_eq _ _ (by simpa using hlt.ne)]
  simp only [Matrix.cons_val_zero, Matrix.cons_val_one, Fin.getElem_fin]
  rw [hr]

/-- **C57** One dimension: the extrapolation from the first or last two points of a sorted grid is, in every cell, nonnegative and integrates to one, or all zero
(all zero if one of the two templates is nearly empty), if the extrapolated standard deviation is not exactly zero. -/
theorem C57_extrapolate_1d {n : ℕ} {C : Type*} {norm : Normalization} {edges : Fin (n + 2) → ℝ} (he : GoodEdges norm edges) (grid : List ℝ) (hs : grid.Pairwise (· < ·))
    (pdf : Fin grid.length → C → Fin (n + 1) → ℝ) (hp : ∀ j c b, 0 ≤ pdf j c b) (t : ℝ) (i : ℕ) (hi : i + 1 < grid.length)
    (hij : (t < grid[0] ∧ i = 0) ∨ (grid[0] ≤ t ∧ i + 2 = grid.length))
    (hstd : ∀ c, ¬ NearlyEmpty (pdf ⟨i, by omega⟩ c) → ¬ NearlyEmpty (pdf ⟨i + 1, hi⟩ c) →
      (grid[i + 1] - t) * stdOf norm edges (pdf ⟨i, by omega⟩ c) + (t - grid[i]) * stdOf norm edges (pdf ⟨i + 1, hi⟩ c) ≠ 0) :
    ∃ r warned, morphExtrapolate1D norm edges grid pdf t = .ok (r, warned) ∧ ∀ c, IsPdfOrZero norm edges (r c) ∧
      (NearlyEmpty (pdf ⟨i, by omega⟩ c) ∨ NearlyEmpty (pdf ⟨i + 1, hi⟩ c) → ∀ b, r c b = .fin 0) := by
  have hlt : grid[i] < grid[i + 1] := List.pairwise_iff_getElem.mp hs i (i + 1) (by omega) hi (by omega)
  have hpos : 0 < grid[i + 1] - grid[i] := by linarith
  obtain ⟨r, hr, hc⟩ := morph_cutOff he (fun j => pdf (![⟨i, by omega⟩, ⟨i + 1, hi⟩] j)) (fun j c b => hp _ c b)
    ![1 - (t - grid[i]) / (grid[i + 1] - grid[i]), (t - grid[i]) / (grid[i + 1] - grid[i])] (by
      intro c hz
      have := hstd c (hz 0) (hz 1)
      intro h0
      apply this
      simp only [Fin.sum_univ_two, Matrix.cons_val_zero, Matrix.cons_val_one] at h0
      field_simp at h0
      linarith)
  refine ⟨(cutOff norm edges r).1, (cutOff norm edges r).2, ?_, fun c => ⟨(hc c).1, ?_⟩⟩
  · exact extrapolate_eq grid hs pdf t i hi hij hr
  · rintro (hz | hz)
    · exact (hc c).2 ⟨0, hz⟩
    · exact (hc c).2 ⟨1, hz⟩

/-- **C57** Two dimensions: the same for the simplex that was chosen (with its barycentric coordinates `w` of the target). -/
theorem C57_extrapolate_2d {n : ℕ} {C : Type*} {norm : Normalization} {edges : Fin (n + 2) → ℝ} (he : GoodEdges norm edges) (argsort : List (FV ℝ × FV ℝ) → ℕ) (T : Triangulation)
    (pdf : Fin T.points.length → C → Fin (n + 1) → ℝ) (hp : ∀ j c b, 0 ≤ pdf j c b) (t : Pt 0) (ind : ℕ) (hind : ind < T.simplices.length)
    (hchosen : findNearestSimplex argsort T t = .ok ind) (hnd : NonDegenerate T T.simplices[ind])
    (hstd : ∀ w : Fin 3 → ℝ, ∑ i, w i = 1 → ∑ i, w i • toPair T.points[T.simplices[ind] i] = toPair t → ∀ c, (∀ i, ¬ NearlyEmpty (pdf (T.simplices[ind] i) c)) →
      ∑ i, w i * stdOf norm edges (pdf (T.simplices[ind] i) c) ≠ 0) :
    ∃ r warned, morphExtrapolate2D norm edges argsort T pdf t = .ok (r, warned) ∧ ∀ c, IsPdfOrZero norm edges (r c) ∧
      ((∃ i, NearlyEmpty (pdf (T.simplices[ind] i) c)) → ∀ b, r c b = .fin 0) := by
  obtain ⟨w, hw, hw1, hwt, -⟩ := C50_barycentric _ (toPair t) hnd
  obtain ⟨r, hr, hc⟩ := morph_cutOff he (fun j => pdf (T.simplices[ind] j)) (fun j c b => hp _ c b) w (hstd w hw1 hwt)
  refine ⟨(cutOff norm edges r).1, (cutOff norm edges r).2, ?_, hc⟩
  unfold morphExtrapolate2D
  rw [hchosen]
  simp only
  rw [List.getElem?_eq_getElem hind]
  simp only [morphSimplex]
  rw [hw, hr]

/-! ## C95 -/

/-- a cell of NaNs stays a cell of NaNs -/
theorem cutOff_nan {n : ℕ} {C : Type*} (norm : Normalization) (edges : Fin (n + 2) → ℝ) (r : C → Fin (n + 1) → FV ℝ) (c : C) (h : ∀ b, r c b = .nan) (b : Fin (n + 1)) :
    (cutOff norm edges r).1 c b = .nan := by
  unfold cutOff
  rw [if_neg]
  · unfold renormalize
    simp only [h]
    rw [fsum_nan (by rw [List.mem_ofFn]; exact ⟨b, by simp⟩)]
    simp [FV.bne, FV.beq]
  · intro hc
    have := hc c b
    rw [h] at this
    simp [FV.ge] at this

/-- a cell of zeros stays a cell of zeros -/
theorem cutOff_zero {n : ℕ} {C : Type*} (norm : Normalization) (edges : Fin (n + 2) → ℝ) (r : C → Fin (n + 1) → FV ℝ) (c : C) (h : ∀ b, r c b = .fin 0) (b : Fin (n + 1)) :
    (cutOff norm edges r).1 c b = .fin 0 := by
  unfold cutOff
  split
  · exact h b
  · show renormalize norm edges (fun b => if FV.lt (r c b) (.fin 0) = true then .fin 0 else r c b) b = .fin 0
    rw [renormalize_fin norm edges (fun _ => 0) _ (fun b => by rw [h b]; simp) b]
    simp

/-- a cell of finite entries stays finite -/
theorem cutOff_finite {n : ℕ} {C : Type*} (norm : Normalization) (edges : Fin (n + 2) → ℝ) (r : C → Fin (n + 1) → FV ℝ) (c : C) (g : Fin (n + 1) → ℝ) (h : ∀ b, r c b = .fin (g b))
    (b : Fin (n + 1)) : ((cutOff norm edges r).1 c b).isFinite = true := by
  unfold cutOff
  split
  · show (r c b).isFinite = true
    rw [h b]; rfl
  · show (renormalize norm edges (fun b => if FV.lt (r c b) (.fin 0) = true then .fin 0 else r c b) b).isFinite = true
    rw [renormalize_fin norm edges (fun b => max (g b) 0) _ (fun b => ?_) b]
    · rfl
    · rw [h b]
      by_cases h : g b < 0
      · rw [max_eq_right h.le]; simp [h]
      · rw [max_eq_left (not_lt.mp h)]; simp [h]

/-- **C95** In one dimension: a cell in which one of the two templates is nearly empty is filled with zeros; every other cell has finite entries if the
extrapolated standard deviation is not zero, and only NaN entries if it is zero. -/
theorem C95_nan_iff {n : ℕ} {C : Type*} {norm : Normalization} {edges : Fin (n + 2) → ℝ} (he : GoodEdges norm edges) (grid : List ℝ) (hs : grid.Pairwise (· < ·))
    (pdf : Fin grid.length → C → Fin (n + 1) → ℝ) (hp : ∀ j c b, 0 ≤ pdf j c b) (t : ℝ) (i : ℕ) (hi : i + 1 < grid.length)
    (hij : (t < grid[0] ∧ i = 0) ∨ (grid[0] ≤ t ∧ i + 2 = grid.length)) :
    ∃ r warned, morphExtrapolate1D norm edges grid pdf t = .ok (r, warned) ∧
      (∀ c, NearlyEmpty (pdf ⟨i, by omega⟩ c) ∨ NearlyEmpty (pdf ⟨i + 1, hi⟩ c) → ∀ b, r c b = .fin 0) ∧
      ∀ c, ¬ NearlyEmpty (pdf ⟨i, by omega⟩ c) → ¬ NearlyEmpty (pdf ⟨i + 1, hi⟩ c) → ∀ b,
      ((grid[i + 1] - t) * stdOf norm edges (pdf ⟨i, by omega⟩ c) + (t - grid[i]) * stdOf norm edges (pdf ⟨i + 1, hi⟩ c) = 0 → r c b = .nan) ∧
      ((grid[i + 1] - t) * stdOf norm edges (pdf ⟨i, by omega⟩ c) + (t - grid[i]) * stdOf norm edges (pdf ⟨i + 1, hi⟩ c) ≠ 0 → (r c b).isFinite = true) := by
  have hlt : grid[i] < grid[i + 1] := List.pairwise_iff_getElem.mp hs i (i + 1) (by omega) hi (by omega)
  have hpos : 0 < grid[i + 1] - grid[i] := by linarith
  obtain ⟨r, hr, hc⟩ := momentMorph_spec he (fun j => pdf (![⟨i, by omega⟩, ⟨i + 1, hi⟩] j)) (fun j c b => hp _ c b)
    ![1 - (t - grid[i]) / (grid[i + 1] - grid[i]), (t - grid[i]) / (grid[i + 1] - grid[i])]
  refine ⟨(cutOff norm edges r).1, (cutOff norm edges r).2, ?_, fun c hz b => ?_, fun c h1 h2 b => ⟨fun h0 => ?_, fun h0 => ?_⟩⟩
  · exact extrapolate_eq grid hs pdf t i hi hij hr
  · refine cutOff_zero norm edges r c ((hc c).1 ?_) b
    rcases hz with hz | hz
    · exact ⟨0, hz⟩
    · exact ⟨1, hz⟩
  · refine cutOff_nan norm edges r c ((hc c).2.2 ?_ (by norm_num) ?_) b
    · intro j; fin_cases j <;> assumption
    · simp only [Fin.sum_univ_two, Matrix.cons_val_zero, Matrix.cons_val_one]
      field_simp
      linarith
  · have hfin := (hc c).2.1 (by intro j; fin_cases j <;> assumption) (by
      intro hz
      apply h0
      simp only [Fin.sum_univ_two, Matrix.cons_val_zero, Matrix.cons_val_one] at hz
      field_simp at hz
      linarith)
    exact cutOff_finite norm edges r c _ hfin b

/-- the grid of the counterexample -/
noncomputable def badPdf : Fin [(0 : ℝ), 1].length → Unit → Fin 2 → ℝ := fun j _ => if j.val = 0 then ![1, 0] else ![0, 1 / 2]

theorem sum2 (f : Fin (1 + 1) → ℝ) : ∑ i, f i = f 0 + f 1 := Fin.sum_univ_two f

theorem vals013 : (![0, 1, 3] : Fin 3 → ℝ) (Fin.castSucc 0) = 0 ∧ (![0, 1, 3] : Fin 3 → ℝ) (Fin.castSucc 1) = 1 ∧ (![0, 1, 3] : Fin 3 → ℝ) (Fin.succ 0) = 1 ∧
    (![0, 1, 3] : Fin 3 → ℝ) (Fin.succ 1) = 3 := ⟨rfl, rfl, rfl, rfl⟩

theorem edges013 : GoodEdges .area (![0, 1, 3] : Fin 3 → ℝ) := by
  refine ⟨?_, by simp⟩
  rw [Fin.strictMono_iff_lt_succ]
  intro i; fin_cases i
  · show (![0, 1, 3] : Fin 3 → ℝ) (Fin.castSucc 0) < (![0, 1, 3] : Fin 3 → ℝ) (Fin.succ 0)
    rw [vals013.1, vals013.2.2.1]; norm_num
  · show (![0, 1, 3] : Fin 3 → ℝ) (Fin.castSucc 1) < (![0, 1, 3] : Fin 3 → ℝ) (Fin.succ 1)
    rw [vals013.2.1, vals013.2.2.2]; norm_num

theorem stdOf_first (p : Fin 2 → ℝ) (h : p 0 ≠ 0) (h1 : p 1 = 0) : stdOf .area (![0, 1, 3] : Fin 3 → ℝ) p = 1 / Real.sqrt 12 := by
  have hex : ∃ b, ∀ b', b' ≠ b → p b' = 0 := ⟨0, by intro b' hb; fin_cases b'; exact absurd rfl hb; exact h1⟩
  have hch : hex.choose = 0 := by
    by_contra hc
    exact h (hex.choose_spec 0 (Ne.symm hc))
  unfold stdOf
  rw [dif_pos hex, hch]
  show ((![0, 1, 3] : Fin 3 → ℝ) (Fin.succ 0) - (![0, 1, 3] : Fin 3 → ℝ) (Fin.castSucc 0)) / _ = _
  rw [vals013.1, vals013.2.2.1]; norm_num

theorem stdOf_second (p : Fin 2 → ℝ) (h : p 1 ≠ 0) (h1 : p 0 = 0) : stdOf .area (![0, 1, 3] : Fin 3 → ℝ) p = 2 / Real.sqrt 12 := by
  have hex : ∃ b, ∀ b', b' ≠ b → p b' = 0 := ⟨1, by intro b' hb; fin_cases b'; exact h1; exact absurd rfl hb⟩
  have hch : hex.choose = 1 := by
    by_contra hc
    exact h (hex.choose_spec 1 (Ne.symm hc))
  unfold stdOf
  rw [dif_pos hex, hch]
  show ((![0, 1, 3] : Fin 3 → ℝ) (Fin.succ 1) - (![0, 1, 3] : Fin 3 → ℝ) (Fin.castSucc 1)) / _ = _
  rw [vals013.2.1, vals013.2.2.2]; norm_num

theorem badPdf_integral (j c) : pdfIntegral .area (![0, 1, 3] : Fin 3 → ℝ) (badPdf j c) = 1 := by
  unfold pdfIntegral
  rw [sum2]
  show badPdf j c 0 * ((![0, 1, 3] : Fin 3 → ℝ) (Fin.succ 0) - (![0, 1, 3] : Fin 3 → ℝ) (Fin.castSucc 0)) +
    badPdf j c 1 * ((![0, 1, 3] : Fin 3 → ℝ) (Fin.succ 1) - (![0, 1, 3] : Fin 3 → ℝ) (Fin.castSucc 1)) = 1
  rw [vals013.1, vals013.2.1, vals013.2.2.1, vals013.2.2.2]
  unfold badPdf
  split <;> norm_num

/-- **C95** (deviation) There are normalized, nonnegative templates on a sorted grid and a target outside of it for which every entry of the extrapolated PDF is NaN. -/
theorem C95_nan_occurs : ∃ (grid : List ℝ) (pdf : Fin grid.length → Unit → Fin 2 → ℝ) (t : ℝ) (r : Unit → Fin 2 → FV ℝ) (warned : Bool),
    grid.Pairwise (· < ·) ∧ (∀ j c b, 0 ≤ pdf j c b) ∧ (∀ j c, pdfIntegral .area (![0, 1, 3] : Fin 3 → ℝ) (pdf j c) = 1) ∧ (∀ x ∈ grid, t < x) ∧
    morphExtrapolate1D .area (![0, 1, 3] : Fin 3 → ℝ) grid pdf t = .ok (r, warned) ∧ ∀ c b, r c b = .nan := by
  have hp : ∀ j c b, 0 ≤ badPdf j c b := by
    intro j c b; unfold badPdf; split <;> fin_cases b <;> norm_num
  have hs : [(0 : ℝ), 1].Pairwise (· < ·) := by simp
  obtain ⟨r, wn, hr, -, hc⟩ := C95_nan_iff edges013 [(0 : ℝ), 1] hs badPdf hp (-1) 0 (by simp) (Or.inl ⟨by norm_num, rfl⟩)
  refine ⟨[0, 1], badPdf, -1, r, wn, hs, hp, ?_, by simp, hr, ?_⟩
  · intro j c
    exact badPdf_integral j c
  · intro c b
    refine (hc c ?_ ?_ b).1 ?_
    · unfold NearlyEmpty; rw [sum2]; unfold badPdf; norm_num [sum2]
    · unfold NearlyEmpty; rw [sum2]; unfold badPdf; norm_num [sum2]
    · rw [stdOf_first, stdOf_second]
      · norm_num; ring
      all_goals norm_num [badPdf]

/-! ## The hypotheses can be met -/

/-- the templates (1, 0) and (0, 1/2) on the edges 0, 1, 3 are normalized and not nearly empty; the hypotheses of C55-C57 hold for the target 1/2 inside and 3 outside -/
example : GoodEdges .area (![0, 1, 3] : Fin 3 → ℝ) ∧ GoodEdges .coneSolidAngle (![0, 1, 3] : Fin 3 → ℝ) ∧ (∀ j c b, 0 ≤ badPdf j c b) ∧
    (∀ j c, ¬ NearlyEmpty (badPdf j c)) ∧ (∀ j c, pdfIntegral .area (![0, 1, 3] : Fin 3 → ℝ) (badPdf j c) = 1) ∧
    (∃ r, morphInterpolate1D .area (![0, 1, 3] : Fin 3 → ℝ) [0, 1] badPdf (1 / 2) = .ok r ∧ ∀ c, IsPdfOrZero .area (![0, 1, 3] : Fin 3 → ℝ) (r c)) ∧
    (∃ r warned, morphExtrapolate1D .area (![0, 1, 3] : Fin 3 → ℝ) [0, 1] badPdf 3 = .ok (r, warned) ∧ ∀ c, IsPdfOrZero .area (![0, 1, 3] : Fin 3 → ℝ) (r c)) := by
  have hp : ∀ j c b, 0 ≤ badPdf j c b := by
    intro j c b; unfold badPdf; split <;> fin_cases b <;> norm_num
  have hs : [(0 : ℝ), 1].Pairwise (· < ·) := by simp
  refine ⟨edges013, ⟨edges013.strict, fun _ i => ?_⟩, hp, ?_, ?_, ?_, ?_⟩
  · have := Real.pi_gt_three
    fin_cases i <;> simp <;> linarith
  · intro j c; unfold NearlyEmpty; rw [sum2]; unfold badPdf; split <;> norm_num [sum2]
  · intro j c
    exact badPdf_integral j c
  · obtain ⟨r, hr, hc⟩ := C55_interpolate_1d edges013 [(0 : ℝ), 1] hs badPdf hp (1 / 2) 0 (by simp) (by norm_num) (by norm_num)
    exact ⟨r, hr, fun c => (hc c).1⟩
  · obtain ⟨r, w, hr, hc⟩ := C57_extrapolate_1d edges013 [(0 : ℝ), 1] hs badPdf hp 3 0 (by simp) (Or.inr ⟨by norm_num, rfl⟩) (by
      intro c _ _
      rw [stdOf_first, stdOf_second]
      · have : (0 : ℝ) < Real.sqrt 12 := by positivity
        norm_num
        field_simp
        norm_num
      all_goals norm_num [badPdf])
    exact ⟨r, w, hr, fun c => (hc c).1⟩

/-- the target (1/4, 1/4) lies in the first simplex of the triangulated unit square -/
example : ∃ hf : 0 < squareTri.simplices.length, NonDegenerate squareTri squareTri.simplices[0] ∧
    InTriangle (fun i => toPair squareTri.points[squareTri.simplices[0] i]) (toPair (![1 / 4, 1 / 4] : Pt 0)) := by
  refine ⟨by simp [squareTri], squareTri_nondegenerate _ (List.getElem_mem _), ![1 / 2, 1 / 4, 1 / 4], ?_, ?_, ?_⟩
  · intro i; fin_cases i <;> norm_num
  · simp [Fin.sum_univ_three]; norm_num
  · have e : (fun i => toPair squareTri.points[(squareTri.simplices[0]'(by simp [squareTri])) i]) = ![(0, 0), (1, 0), (0, 1)] := by
      funext i; fin_cases i <;> rfl
    rw [e]
    simp [Fin.sum_univ_three, toPair]

end Pyirf.Interpolation
