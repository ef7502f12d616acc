import Verif.Interpolation.MorphModel
import Verif.Interpolation.ExtrapProps
import Verif.Binning.Lemmas
import Verif.Utils.Props
import Verif.Spectral.Props

/-!
# Specification vocabulary and lemmas for the moment morphing
-/
set_option linter.unusedSectionVars false
set_option linter.unusedSimpArgs false

namespace Pyirf.Interpolation
open Pyirf Pyirf.Np
open scoped Real

/-- The size of a bin: its length, or the solid angle (surface integral) of the ring between two cones. -/
noncomputable def binMeasure {n : ℕ} : Normalization → (Fin (n + 2) → ℝ) → Fin (n + 1) → ℝ
  | .area, edges, b => edges b.succ - edges b.castSucc
  | .coneSolidAngle, edges, b => Spectral.ringSolidAngle (edges b.castSucc) (edges b.succ)

/-- The integral of a binned density. -/
noncomputable def pdfIntegral {n : ℕ} (norm : Normalization) (edges : Fin (n + 2) → ℝ) (p : Fin (n + 1) → ℝ) : ℝ := ∑ b, p b * binMeasure norm edges b

/-- Usable edges: strictly increasing; opening angles between 0 and 180 degrees if they are cones. -/
structure GoodEdges {n : ℕ} (norm : Normalization) (edges : Fin (n + 2) → ℝ) : Prop where
  strict : StrictMono edges
  cone : norm = .coneSolidAngle → ∀ i, 0 ≤ edges i ∧ edges i ≤ π

/-- A template whose entries add up to (nearly) nothing. -/
def NearlyEmpty {n : ℕ} (p : Fin (n + 1) → ℝ) : Prop := |∑ b, p b| ≤ 1e-8

/-- Middle of a bin -/
noncomputable def middle {n : ℕ} (edges : Fin (n + 2) → ℝ) (b : Fin (n + 1)) : ℝ := (edges b.castSucc + edges b.succ) / 2

/-- Mean of a binned density, every bin's content placed at its middle. -/
noncomputable def meanOf {n : ℕ} (norm : Normalization) (edges : Fin (n + 2) → ℝ) (p : Fin (n + 1) → ℝ) : ℝ :=
  pdfIntegral norm edges (fun b => middle edges b * p b) / pdfIntegral norm edges p

open Classical in
/-- Standard deviation of a binned density, every bin's content placed at its middle; if there is only one filled bin, that of a uniform distribution in it. -/
noncomputable def stdOf {n : ℕ} (norm : Normalization) (edges : Fin (n + 2) → ℝ) (p : Fin (n + 1) → ℝ) : ℝ :=
  if h : ∃ b, ∀ b', b' ≠ b → p b' = 0 then (edges h.choose.succ - edges h.choose.castSucc) / Real.sqrt 12
  else Real.sqrt (pdfIntegral norm edges (fun b => (middle edges b - meanOf norm edges p) ^ 2 * p b) / pdfIntegral norm edges p)

open Classical in
/-- The height of a histogram at a point, 0 outside of it. -/
noncomputable def heightAt {n : ℕ} (edges : Fin (n + 2) → ℝ) (p : Fin (n + 1) → ℝ) (x : ℝ) : ℝ :=
  if h : ∃ b : Fin (n + 1), edges b.castSucc ≤ x ∧ x < edges b.succ then p h.choose else 0

/-! ## Lemmas -/

theorem binWidth_eq {n : ℕ} (norm : Normalization) (edges : Fin (n + 2) → ℝ) (b : Fin (n + 1)) : binWidth norm edges b = binMeasure norm edges b := by
  cases norm
  · rfl
  · simp only [binWidth, binMeasure, Utils.coneSolidAngle, Spectral.ringSolidAngle, integral_sin]
    ring

theorem binWidth_pos {n : ℕ} {norm : Normalization} {edges : Fin (n + 2) → ℝ} (h : GoodEdges norm edges) (b : Fin (n + 1)) : 0 < binWidth norm edges b := by
  have hlt : edges b.castSucc < edges b.succ := h.strict (Fin.castSucc_lt_succ)
  cases norm
  · simp only [binWidth]; linarith
  · simp only [binWidth]
    have h1 := h.cone rfl b.castSucc
    have h2 := h.cone rfl b.succ
    have := Utils.C69_cone_values.2.2 h1 h2 hlt
    linarith

theorem binMid_eq {n : ℕ} (edges : Fin (n + 2) → ℝ) (b : Fin (n + 1)) : binMid edges b = middle edges b := by unfold binMid middle; ring

theorem pdfScale_eq {n : ℕ} (norm : Normalization) (edges : Fin (n + 2) → ℝ) (p : Fin (n + 1) → ℝ) : pdfScale norm edges p = pdfIntegral norm edges p := by
  unfold pdfScale pdfIntegral; simp only [binWidth_eq]

theorem pdfMean_eq {n : ℕ} (norm : Normalization) (edges : Fin (n + 2) → ℝ) (p : Fin (n + 1) → ℝ) : pdfMean norm edges p = meanOf norm edges p := by
  unfold pdfMean meanOf
  rw [pdfScale_eq]
  unfold pdfIntegral
  simp only [binWidth_eq, binMid_eq, mul_assoc]

theorem edges_increasing {n : ℕ} {edges : Fin (n + 2) → ℝ} (h : StrictMono edges) : Increasing (edgeList edges) := by
  refine ⟨?_, ?_⟩
  · intro e he
    unfold edgeList at he
    obtain ⟨i, rfl⟩ := (List.mem_ofFn' _ _).mp he
    simp
  · unfold edgeList
    rw [List.pairwise_ofFn]
    intro i j hij
    simpa using (h hij).le

theorem mid_strictMono {n : ℕ} {edges : Fin (n + 2) → ℝ} (h : StrictMono edges) : StrictMono (middle edges) := by
  intro a b hab
  have h1 : edges a.castSucc < edges b.castSucc := h (by simpa using hab)
  have h2 : edges a.succ < edges b.succ := h (by simpa using hab)
  unfold middle; linarith

theorem pdfIntegral_pos {n : ℕ} {norm : Normalization} {edges : Fin (n + 2) → ℝ} (h : GoodEdges norm edges) {p : Fin (n + 1) → ℝ} (hp : ∀ b, 0 ≤ p b) (hne : ∃ b, p b ≠ 0) :
    0 < pdfIntegral norm edges p := by
  obtain ⟨b, hb⟩ := hne
  unfold pdfIntegral
  refine Finset.sum_pos' (fun i _ => ?_) ⟨b, Finset.mem_univ _, ?_⟩
  · rw [← binWidth_eq]; exact mul_nonneg (hp i) (binWidth_pos h i).le
  · rw [← binWidth_eq]; exact mul_pos (lt_of_le_of_ne (hp b) (Ne.symm hb)) (binWidth_pos h b)

theorem nonzeroBins_single {n : ℕ} {p : Fin (n + 1) → ℝ} {b : Fin (n + 1)} (hb : p b ≠ 0) (h : ∀ b', b' ≠ b → p b' = 0) : nonzeroBins p = [b] := by
  have hn : (nonzeroBins p).Nodup := (List.nodup_finRange _).filter _
  have hp : (nonzeroBins p).Perm [b] := by
    rw [List.perm_ext_iff_of_nodup hn (List.nodup_singleton b)]
    intro x
    simp only [nonzeroBins, List.mem_filter, List.mem_finRange, true_and, decide_eq_true_eq, List.mem_singleton]
    constructor
    · intro hx; by_contra hc; exact hx (h x hc)
    · rintro rfl; exact hb
  exact List.perm_singleton.mp hp

/-- The standard deviation of a nonnegative, non-zero template is defined and positive. -/
theorem pdfStd_eq {n : ℕ} {norm : Normalization} {edges : Fin (n + 2) → ℝ} (h : GoodEdges norm edges) {p : Fin (n + 1) → ℝ} (hp : ∀ b, 0 ≤ p b) (hne : ∃ b, p b ≠ 0) :
    pdfStd norm edges p = .ok (.fin (stdOf norm edges p)) ∧ 0 < stdOf norm edges p := by
  have hpos := pdfIntegral_pos h hp hne
  set V : ℝ := pdfIntegral norm edges (fun b => (middle edges b - meanOf norm edges p) ^ 2 * p b) / pdfIntegral norm edges p with hV
  have hV0 : 0 ≤ V := by
    refine div_nonneg (Finset.sum_nonneg fun b _ => ?_) hpos.le
    rw [← binWidth_eq]
    exact mul_nonneg (mul_nonneg (sq_nonneg _) (hp b)) (binWidth_pos h b).le
  have hstd0 : pdfStd0 norm edges p = .fin (Real.sqrt V) := by
    unfold pdfStd0
    have : (∑ b, (binMid edges b - pdfMean norm edges p) ^ 2 * (p b * binWidth norm edges b)) / pdfScale norm edges p = V := by
      rw [hV, pdfScale_eq, pdfMean_eq]
      unfold pdfIntegral
      simp only [binWidth_eq, binMid_eq, mul_assoc]
    rw [this]
    unfold fsqrt
    rw [if_neg (not_lt.mpr hV0)]
  by_cases hs : ∃ b, ∀ b', b' ≠ b → p b' = 0
  · obtain ⟨b0, hb0⟩ := hne
    have hch : hs.choose = b0 := by
      by_contra hc
      exact hb0 (hs.choose_spec b0 (Ne.symm hc))
    have hspec : ∀ b', b' ≠ b0 → p b' = 0 := by
      intro b' hb'; exact hs.choose_spec b' (by rw [hch]; exact hb')
    have hI : ∀ g : Fin (n + 1) → ℝ, pdfIntegral norm edges (fun b => g b * p b) = g b0 * p b0 * binMeasure norm edges b0 := by
      intro g
      unfold pdfIntegral
      rw [Finset.sum_eq_single b0]
      · intro b _ hb; simp [hspec b hb]
      · simp
    have hI1 : pdfIntegral norm edges p = p b0 * binMeasure norm edges b0 := by
      have := hI (fun _ => 1)
      simpa using this
    have hmean : meanOf norm edges p = middle edges b0 := by
      unfold meanOf
      rw [hI, hI1]
      have hb1 : binMeasure norm edges b0 ≠ 0 := by rw [← binWidth_eq]; exact (binWidth_pos h b0).ne'
      field_simp
    have hVz : V = 0 := by
      rw [hV, hI (fun b => (middle edges b - meanOf norm edges p) ^ 2), hmean]; simp
    have hsd : stdOf norm edges p = (edges b0.succ - edges b0.castSucc) / Real.sqrt 12 := by
      unfold stdOf; rw [dif_pos hs, hch]
    refine ⟨?_, ?_⟩
    · unfold pdfStd
      rw [hstd0, hVz, Real.sqrt_zero]
      rw [if_pos (by simp [FV.beq])]
      rw [nonzeroBins_single hb0 hspec, hsd]
      simp only
      congr 2
      rw [Real.sqrt_div (by norm_num), Real.sqrt_one]
      ring
    · rw [hsd]
      have : edges b0.castSucc < edges b0.succ := h.strict Fin.castSucc_lt_succ
      exact div_pos (by linarith) (by positivity)
  · have hsd : stdOf norm edges p = Real.sqrt V := by unfold stdOf; rw [dif_neg hs]
    have hVpos : 0 < V := by
      refine div_pos ?_ hpos
      push Not at hs
      obtain ⟨b0, hb0⟩ := hne
      obtain ⟨b1, hb1, hb1'⟩ := hs b0
      have hne' : ∃ b, middle edges b ≠ meanOf norm edges p ∧ p b ≠ 0 := by
        by_cases hm : middle edges b0 = meanOf norm edges p
        · refine ⟨b1, ?_, hb1'⟩
          rw [← hm]
          exact fun hc => hb1 ((mid_strictMono h.strict).injective hc)
        · exact ⟨b0, hm, hb0⟩
      obtain ⟨b, hb, hb'⟩ := hne'
      refine Finset.sum_pos' (fun i _ => ?_) ⟨b, Finset.mem_univ _, ?_⟩
      · rw [← binWidth_eq]; exact mul_nonneg (mul_nonneg (sq_nonneg _) (hp i)) (binWidth_pos h i).le
      · rw [← binWidth_eq]
        refine mul_pos (mul_pos ?_ (lt_of_le_of_ne (hp b) (Ne.symm hb'))) (binWidth_pos h b)
        exact pow_pos_of_sq _ (sub_ne_zero.mpr hb)
    refine ⟨?_, by rw [hsd]; exact Real.sqrt_pos.mpr hVpos⟩
    unfold pdfStd
    rw [hstd0, if_neg, hsd]
    simp only [FV.beq_iff, FV.fin.injEq, not_and]
    intro hc
    exact absurd hc (Real.sqrt_pos.mpr hVpos).ne'
where
  pow_pos_of_sq (x : ℝ) (hx : x ≠ 0) : 0 < x ^ 2 := by positivity

theorem heightAt_of {n : ℕ} {edges : Fin (n + 2) → ℝ} (h : StrictMono edges) (p : Fin (n + 1) → ℝ) {x : ℝ} {b : Fin (n + 1)} (h1 : edges b.castSucc ≤ x) (h2 : x < edges b.succ) :
    heightAt edges p x = p b := by
  have hex : ∃ b : Fin (n + 1), edges b.castSucc ≤ x ∧ x < edges b.succ := ⟨b, h1, h2⟩
  unfold heightAt
  rw [dif_pos hex]
  congr 1
  have hs := hex.choose_spec
  rcases lt_trichotomy hex.choose b with hlt | he | hlt
  · have : edges hex.choose.succ ≤ edges b.castSucc := h.monotone (by rw [Fin.le_def]; simp; exact hlt)
    linarith [hs.2]
  · exact he
  · have : edges b.succ ≤ edges hex.choose.castSucc := h.monotone (by rw [Fin.le_def]; simp; exact hlt)
    linarith [hs.1]

theorem lookup_eq {n : ℕ} {edges : Fin (n + 2) → ℝ} (h : StrictMono edges) (p : Fin (n + 1) → ℝ) (x : ℝ) : lookup edges p (.fin x) = heightAt edges p x := by
  have hinc := edges_increasing h
  have hlen : (edgeList edges).length = n + 2 := by simp [edgeList]
  have hget : ∀ (i : ℕ) (hi : i < n + 2), (edgeList edges)[i]'(by rw [hlen]; exact hi) = .fin (edges ⟨i, hi⟩) := by
    intro i hi; simp only [edgeList, List.getElem_ofFn]
  unfold lookup
  rw [Binning.calculateBinIndices_increasing hinc [FV.fin x] (by simp)]
  simp only [List.map_cons, List.map_nil]
  rcases Binning.bin_cases hinc (by rw [hlen]; omega) (.fin x) with hc | ⟨i, hi⟩ | hc
  · rw [Binning.binIdx_underflow hinc (by rw [hlen]; omega) _ hc]
    rw [hget 0 (by omega)] at hc
    simp only [FV.lt_fin, decide_eq_true_eq] at hc
    unfold heightAt
    rw [dif_neg]
    rintro ⟨b, hb, _⟩
    have : edges ⟨0, by omega⟩ ≤ edges b.castSucc := h.monotone (Fin.zero_le _)
    linarith
  · rw [(Binning.binIdx_inBin hinc _ i).mpr hi]
    obtain ⟨h1, h2, h3⟩ := hi
    rw [hlen] at h1
    rw [hget i (by omega)] at h2
    rw [hget (i + 1) h1] at h3
    simp only [FV.le_fin, FV.lt_fin, decide_eq_true_eq] at h2 h3
    have hb : i < n + 1 := by omega
    rw [heightAt_of h p (b := ⟨i, hb⟩) h2 h3]
    show (List.ofFn p).getD i 0 = _
    rw [List.getD_eq_getElem?_getD, List.getElem?_eq_getElem (by simpa using hb)]
    simp only [Option.getD_some, List.getElem_ofFn]
  · rw [Binning.binIdx_overflow hinc (by rw [hlen]; omega) _ hc]
    unfold heightAt
    rw [dif_neg]
    rintro ⟨b, _, hb⟩
    rcases hc with hc | hc
    · simp at hc
    · have hl2 : (edgeList edges)[(edgeList edges).length - 1]'(by rw [hlen]; omega) = .fin (edges (Fin.last _)) := by
        have := hget (n + 1) (by omega)
        simp only [hlen]
        exact this
      rw [hl2] at hc
      simp only [FV.le_fin, decide_eq_true_eq] at hc
      have : edges b.succ ≤ edges (Fin.last _) := h.monotone (Fin.le_last _)
      linarith

end Pyirf.Interpolation
