import Verif.Rounded.HistProps
import Verif.Rounded.LiMaProps
import Verif.Interpolation.QuantileProps

/-!
# C150: interpolation of distributions and effective areas in rounded arithmetic
-/
set_option linter.unusedSectionVars false
set_option linter.unusedSimpArgs false

namespace Pyirf.Rounded
open Pyirf Pyirf.Np

variable (R : Rounding)

theorem mul_nonneg_rd {x y : ℝ} (hx : 0 ≤ x) (hy : 0 ≤ y) : 0 ≤ R.mul x y := R.nonneg (mul_nonneg hx hy)

section
variable {m : ℕ} {w p : Fin (m + 1) → ℝ} (hw : ∀ b, 0 ≤ w b) (hp : ∀ b, 0 ≤ p b)
include hw hp

theorem terms_nonneg : ∀ x ∈ List.ofFn (fun i => R.mul (p i) (w i)), 0 ≤ x := by
  intro x hx
  obtain ⟨i, rfl⟩ := (List.mem_ofFn' _ _).1 hx
  exact mul_nonneg_rd R (hp i) (hw i)

theorem cumProb_mono : Monotone (cumProb R w p) := by
  intro a b hab
  apply seqSum_prefix R
  · exact List.take_prefix_take_left (by have : a.val ≤ b.val := hab; omega)
  · intro x hx; exact terms_nonneg R hw hp x (List.mem_of_mem_take hx)

theorem cumProb_nonneg (b : Fin (m + 1)) : 0 ≤ cumProb R w p b := (seqSum_is R _ fun x hx => terms_nonneg R hw hp x (List.mem_of_mem_take hx)).2

theorem top_eq : Finset.univ.sup' Finset.univ_nonempty (cumProb R w p) = cumProb R w p (Fin.last m) := by
  apply le_antisymm
  · exact Finset.sup'_le _ _ fun i _ => cumProb_mono R hw hp (Fin.le_last i)
  · exact Finset.le_sup' (cumProb R w p) (Finset.mem_univ _)

/-- a prefix sum is zero exactly if its terms are -/
theorem cumProb_eq_zero (b : Fin (m + 1)) : cumProb R w p b = 0 ↔ ∀ i ≤ b, p i * w i = 0 := by
  have hnn : ∀ x ∈ (List.ofFn fun i => R.mul (p i) (w i)).take (b.val + 1), 0 ≤ x := fun x hx => terms_nonneg R hw hp x (List.mem_of_mem_take hx)
  have hnear := seqSum_near R _ hnn
  have hmem : ∀ i ≤ b, R.mul (p i) (w i) ∈ (List.ofFn fun i => R.mul (p i) (w i)).take (b.val + 1) := by
    intro i hi
    have hi' : i.val ≤ b.val := hi
    rw [List.mem_take_iff_getElem]
    refine ⟨i.val, ?_, ?_⟩
    · rw [List.length_ofFn]; have := i.isLt; have := b.isLt; omega
    · rw [List.getElem_ofFn]
  have key : ∀ i, p i * w i = 0 ↔ R.mul (p i) (w i) = 0 := by
    intro i
    constructor
    · intro h; unfold Rounding.mul; rw [h]; exact R.zero
    · intro h
      by_contra hc
      have := R.pos (lt_of_le_of_ne (mul_nonneg (hp i) (hw i)) (Ne.symm hc))
      unfold Rounding.mul at h
      linarith
  constructor
  · intro h i hi
    have hs : ((List.ofFn fun i => R.mul (p i) (w i)).take (b.val + 1)).sum = 0 := by
      have h1 := hnear.1
      have h2 := pow_bounds R ((List.ofFn fun i => R.mul (p i) (w i)).take (b.val + 1)).length
      have h3 := List.sum_nonneg hnn
      have h4 : seqSum R ((List.ofFn fun i => R.mul (p i) (w i)).take (b.val + 1)) = 0 := h
      rw [h4] at h1
      nlinarith [h2.1]
    rw [key]
    have h5 := List.single_le_sum hnn _ (hmem i hi)
    have h6 := hnn _ (hmem i hi)
    linarith
  · intro h
    have hs : ((List.ofFn fun i => R.mul (p i) (w i)).take (b.val + 1)).sum = 0 := by
      apply List.sum_eq_zero
      intro x hx
      rw [List.mem_take_iff_getElem] at hx
      obtain ⟨j, hj, rfl⟩ := hx
      simp only [List.getElem_ofFn]
      rw [List.length_ofFn] at hj
      exact (key _).1 (h _ (show j ≤ b.val by omega))
    have h1 := hnear
    rw [hs] at h1
    have a := h1.1
    have c := h1.2
    rw [mul_zero] at a c
    exact le_antisymm c a

/-- **C150** (cumulative distribution) For every rounding and templates and widths that are not negative: the computed cumulative distribution does not decrease, lies in [0, 1], and is 0 exactly up to the
bins without content; its last value is exactly 1 if the template is not empty. -/
theorem C150_cdf : Monotone (cdfValues R w p) ∧ (∀ b, 0 ≤ cdfValues R w p b ∧ cdfValues R w p b ≤ 1) ∧
    (∀ b, cdfValues R w p b = 0 ↔ ∀ i ≤ b, p i * w i = 0) ∧ ((∃ b, p b * w b ≠ 0) → cdfValues R w p (Fin.last m) = 1) := by
  have htop := top_eq R hw hp
  have hmono := cumProb_mono R hw hp
  have hnn := cumProb_nonneg R hw hp
  by_cases h : cumProb R w p (Fin.last m) = 0
  · have h0 : cdfValues R w p = fun _ => 0 := by
      funext b; unfold cdfValues; simp only [htop, h, if_true]
    have hz := (cumProb_eq_zero R hw hp (Fin.last m)).1 h
    rw [h0]
    refine ⟨fun _ _ _ => le_rfl, fun b => ⟨le_rfl, zero_le_one⟩, fun b => ⟨fun _ i _ => hz i (Fin.le_last i), fun _ => rfl⟩, ?_⟩
    rintro ⟨b, hb⟩
    exact absurd (hz b (Fin.le_last b)) hb
  · have hpos : 0 < cumProb R w p (Fin.last m) := lt_of_le_of_ne (hnn _) (Ne.symm h)
    have h0 : ∀ b, cdfValues R w p b = R.rd (cumProb R w p b / cumProb R w p (Fin.last m)) := by
      intro b; unfold cdfValues; simp only [htop, if_neg h]; rfl
    have hlast : cdfValues R w p (Fin.last m) = 1 := by rw [h0, div_self h]; exact R.one
    have hm : Monotone (cdfValues R w p) := by
      intro a b hab
      rw [h0, h0]
      apply R.mono
      gcongr
      exact hmono hab
    refine ⟨hm, fun b => ⟨?_, ?_⟩, fun b => ?_, fun _ => hlast⟩
    · rw [h0]; exact R.nonneg (div_nonneg (hnn b) hpos.le)
    · rw [← hlast]; exact hm (Fin.le_last b)
    · rw [← cumProb_eq_zero R hw hp b, h0]
      constructor
      · intro hz
        by_contra hc
        have := R.pos (div_pos (lt_of_le_of_ne (hnn b) (Ne.symm hc)) hpos)
        linarith
      · intro hz; rw [hz, zero_div]; exact R.zero

/-- **C150** (inverse) So the search for the first 1 in the code never fails: for a template that is not empty and starts with an empty bin (which the interpolator adds), and increasing bin
centers, the table of the inverse interpolation of the computed cumulative distribution gives numbers that increase strictly with the quantile. -/
theorem C150_ppf (h0 : p 0 = 0) (hne : ∃ b, p b * w b ≠ 0) {mids : Fin (m + 1) → ℝ} (hm : StrictMono mids) :
    ∃ P : ℝ → ℝ, (∀ q, Interpolation.ppfValue mids (fun b => .fin (cdfValues R w p b)) q = .ok (.fin (P q))) ∧ StrictMonoOn P (Set.Icc 0 1) := by
  obtain ⟨c1, c2, c3, c4⟩ := C150_cdf R hw hp
  have hcdf : Interpolation.IsCdf (cdfValues R w p) := by
    refine ⟨c1, ?_, c4 hne⟩
    rw [c3]
    intro i hi
    have : i = 0 := le_antisymm hi (Fin.zero_le i)
    rw [this, h0, zero_mul]
  obtain ⟨P, h1, h2, -⟩ := Interpolation.ppfValue_spec hcdf hm
  exact ⟨P, h1, h2⟩

end

/-- **C150** (normalisation) For every rounding, `norm_pdf` of numbers that are not negative with positive widths is not negative, 0 exactly where the numbers are, and its integral differs from 1 by
one rounding per bin and two more. -/
theorem C150_norm_pdf {m : ℕ} {w f : Fin (m + 1) → ℝ} (hw : ∀ b, 0 < w b) (hf : ∀ b, 0 ≤ f b) :
    (∀ b, 0 ≤ normPdf R w f b) ∧ (∀ b, normPdf R w f b = 0 ↔ f b = 0) ∧
    ((∃ b, f b ≠ 0) → (1 - R.u) / (1 + R.u) ^ (m + 2) ≤ ∑ b, normPdf R w f b * w b ∧ ∑ b, normPdf R w f b * w b ≤ (1 + R.u) / (1 - R.u) ^ (m + 2)) := by
  have hu0 := R.u_nonneg
  have hu1 := R.u_lt_one
  have hnn : ∀ x ∈ List.ofFn f, 0 ≤ x := by
    intro x hx
    obtain ⟨i, rfl⟩ := (List.mem_ofFn' _ _).1 hx
    exact hf i
  have hnear := seqSum_near R _ hnn
  rw [List.length_ofFn, List.sum_ofFn] at hnear
  set N := seqSum R (List.ofFn f) with hN
  have hb := pow_bounds R (m + 1)
  have hS : 0 ≤ ∑ b, f b := Finset.sum_nonneg fun b _ => hf b
  have hN0 : 0 ≤ N := le_trans (mul_nonneg hb.1.le hS) hnear.1
  by_cases h : N = 0
  · have hz : ∑ b, f b = 0 := by
      have := hnear.1
      rw [h] at this
      nlinarith [hb.1]
    have hall : ∀ b, f b = 0 := fun b => (Finset.sum_eq_zero_iff_of_nonneg fun b _ => hf b).1 hz b (Finset.mem_univ b)
    have hn : ∀ b, normPdf R w f b = 0 := by
      intro b; unfold normPdf; simp only [← hN, h, if_true]
    refine ⟨fun b => by rw [hn], fun b => by simp [hn, hall], ?_⟩
    rintro ⟨b, hb'⟩
    exact absurd (hall b) hb'
  · have hNp : 0 < N := lt_of_le_of_ne hN0 (Ne.symm h)
    have hn : ∀ b, normPdf R w f b = R.div (f b) (R.mul N (w b)) := by
      intro b; unfold normPdf; simp only [← hN, if_neg h]
    have hd : ∀ b, 0 < R.mul N (w b) := fun b => R.pos (mul_pos hNp (hw b))
    have hSp : 0 < ∑ b, f b := by
      have hu := hnear.2
      have h3 : 0 < (1 + R.u) ^ (m + 1) := by positivity
      by_contra hc
      have : ∑ b, f b = 0 := le_antisymm (not_lt.1 hc) hS
      rw [this, mul_zero] at hu
      linarith
    refine ⟨fun b => ?_, fun b => ?_, fun _ => ?_⟩
    · rw [hn]; exact R.nonneg (div_nonneg (hf b) (hd b).le)
    · rw [hn]
      constructor
      · intro hz
        by_contra hc
        have := R.pos (div_pos (lt_of_le_of_ne (hf b) (Ne.symm hc)) (hd b))
        unfold Rounding.div at hz
        linarith
      · intro hz; rw [hz]; unfold Rounding.div; rw [zero_div]; exact R.zero
    · have one : ∀ b, (1 - R.u) / (1 + R.u) * (f b / N) ≤ normPdf R w f b * w b ∧ normPdf R w f b * w b ≤ (1 + R.u) / (1 - R.u) * (f b / N) := by
        intro b
        rw [hn]
        obtain ⟨a1, a2⟩ := R.bounds (mul_pos hNp (hw b)).le
        obtain ⟨b1, b2⟩ := R.bounds (div_nonneg (hf b) (hd b).le)
        have hwb := hw b
        have hd' := hd b
        have hfb := hf b
        change (1 - R.u) * (N * w b) ≤ R.mul N (w b) at a1
        change R.mul N (w b) ≤ (1 + R.u) * (N * w b) at a2
        change (1 - R.u) * (f b / R.mul N (w b)) ≤ R.div (f b) (R.mul N (w b)) at b1
        change R.div (f b) (R.mul N (w b)) ≤ (1 + R.u) * (f b / R.mul N (w b)) at b2
        constructor
        · refine le_trans ?_ (mul_le_mul_of_nonneg_right b1 hwb.le)
          have : f b / N / (1 + R.u) ≤ f b / R.mul N (w b) * w b := by
            rw [div_div, div_mul_eq_mul_div, div_le_div_iff₀ (by positivity) hd']
            nlinarith [mul_le_mul_of_nonneg_left a2 hfb]
          have := mul_le_mul_of_nonneg_left this (show 0 ≤ 1 - R.u by linarith)
          calc (1 - R.u) / (1 + R.u) * (f b / N) = (1 - R.u) * (f b / N / (1 + R.u)) := by ring
            _ ≤ (1 - R.u) * (f b / R.mul N (w b) * w b) := this
            _ = (1 - R.u) * (f b / R.mul N (w b)) * w b := by ring
        · refine le_trans (mul_le_mul_of_nonneg_right b2 hwb.le) ?_
          have h1u : 0 < 1 - R.u := by linarith
          have : f b / R.mul N (w b) * w b ≤ f b / N / (1 - R.u) := by
            rw [div_div, div_mul_eq_mul_div, div_le_div_iff₀ hd' (by positivity)]
            nlinarith [mul_le_mul_of_nonneg_left a1 hfb]
          have := mul_le_mul_of_nonneg_left this (show 0 ≤ 1 + R.u by linarith)
          calc (1 + R.u) * (f b / R.mul N (w b)) * w b = (1 + R.u) * (f b / R.mul N (w b) * w b) := by ring
            _ ≤ (1 + R.u) * (f b / N / (1 - R.u)) := this
            _ = (1 + R.u) / (1 - R.u) * (f b / N) := by ring
      have s1 := Finset.sum_le_sum (s := Finset.univ) fun b _ => (one b).1
      have s2 := Finset.sum_le_sum (s := Finset.univ) fun b _ => (one b).2
      rw [← Finset.mul_sum, ← Finset.sum_div] at s1 s2
      have h1u : 0 < 1 - R.u := by linarith
      have q1 : 1 / (1 + R.u) ^ (m + 1) ≤ (∑ b, f b) / N := by
        rw [div_le_div_iff₀ (by positivity) hNp]; linarith [hnear.2]
      have q2 : (∑ b, f b) / N ≤ 1 / (1 - R.u) ^ (m + 1) := by
        rw [div_le_div_iff₀ hNp hb.1]; linarith [hnear.1]
      constructor
      · refine le_trans ?_ s1
        refine le_trans (le_of_eq ?_) (mul_le_mul_of_nonneg_left q1 (by positivity))
        rw [pow_succ]; field_simp
      · refine le_trans s2 ?_
        refine le_trans (mul_le_mul_of_nonneg_left q2 (by positivity)) (le_of_eq ?_)
        rw [div_mul_div_comm, mul_one, ← pow_succ']

/-- An exponential function with relative error at most `v`. -/
def ExpWithin (v : ℝ) (exp : ℝ → ℝ) : Prop := ∀ x, |exp x - Real.exp x| ≤ v * Real.exp x

/-- **C150** (effective area at a grid point) For a logarithm and an exponential function with relative error at most `v`: the estimate is 0, or differs from the area (the minimum for areas below it) by a relative
error of at most `exp(v |log area|) (1 + v) - 1`. It can be 0 only for areas up to that error above the minimum. With the default minimum 1 and exp(0) = 1, every area up to the minimum gives exactly 1. Otherwise whether areas up to the
minimum give 0 or about the minimum depends on the rounding. -/
theorem C150_area_at_node {v : ℝ} (hv : 0 ≤ v) (hv1 : v < 1) {log exp : ℝ → ℝ} (hl : LogWithin v log) (he : ExpWithin v exp) (area minArea : ℝ) (hmin : 0 < minArea) :
    (areaAtNode log exp area minArea = 0 ∨ |areaAtNode log exp area minArea - max area minArea| ≤ (Real.exp (v * |Real.log (max area minArea)|) * (1 + v) - 1) * max area minArea) ∧
    (areaAtNode log exp area minArea = 0 → max area minArea < minArea + (Real.exp (v * |Real.log (max area minArea)|) * (1 + v) - 1) * max area minArea) ∧
    (minArea = 1 → exp 0 = 1 → area ≤ 1 → areaAtNode log exp area minArea = 1) := by
  have hmax : (if area < minArea then minArea else area) = max area minArea := by
    by_cases h : area < minArea
    · rw [if_pos h, max_eq_right h.le]
    · rw [if_neg h, max_eq_left (not_lt.1 h)]
  set a := max area minArea with ha
  have hap : 0 < a := lt_of_lt_of_le hmin (le_max_right _ _)
  have hval : areaAtNode log exp area minArea = if exp (log a) < minArea then 0 else exp (log a) := by
    unfold areaAtNode; simp only [hmax]
  have hlog := hl a hap
  set d := v * |Real.log a| with hd
  have hd0 : 0 ≤ d := by positivity
  have hexp := he (log a)
  have e1 : Real.exp (log a) ≤ a * Real.exp d := by
    rw [← Real.exp_log hap, ← Real.exp_add, Real.exp_le_exp, Real.exp_log hap]
    have := (abs_le.1 hlog).2; linarith
  have e2 : a * Real.exp (-d) ≤ Real.exp (log a) := by
    rw [← Real.exp_log hap, ← Real.exp_add, Real.exp_le_exp, Real.exp_log hap]
    have := (abs_le.1 hlog).1; linarith
  have hE : 1 ≤ Real.exp d := Real.one_le_exp hd0
  have key : |exp (log a) - a| ≤ (Real.exp d * (1 + v) - 1) * a := by
    obtain ⟨x1, x2⟩ := abs_le.1 hexp
    rw [abs_le]
    constructor
    · have h3 : 2 - Real.exp d ≤ Real.exp (-d) := by
        rw [Real.exp_neg]
        have hp := Real.exp_pos d
        rw [← sub_nonneg]
        have : (Real.exp d)⁻¹ - (2 - Real.exp d) = (Real.exp d - 1) ^ 2 / Real.exp d := by
          field_simp; ring
        rw [this]; positivity
      have h4 : (1 - v) * (a * Real.exp (-d)) ≤ exp (log a) := by
        have := mul_le_mul_of_nonneg_left e2 (show 0 ≤ 1 - v by linarith)
        linarith
      have h5 : (1 - v) * (a * (2 - Real.exp d)) ≤ (1 - v) * (a * Real.exp (-d)) :=
        mul_le_mul_of_nonneg_left (mul_le_mul_of_nonneg_left h3 hap.le) (by linarith)
      have h6 : 0 ≤ a * v * (Real.exp d - 1) := mul_nonneg (mul_nonneg hap.le hv) (by linarith)
      nlinarith
    · have := mul_le_mul_of_nonneg_left e1 (show 0 ≤ 1 + v by linarith)
      nlinarith
  refine ⟨?_, ?_, ?_⟩
  · rw [hval]
    by_cases h : exp (log a) < minArea
    · rw [if_pos h]; exact Or.inl rfl
    · rw [if_neg h]; exact Or.inr key
  · intro h
    rw [hval] at h
    have hpos : 0 < exp (log a) := by
      have := (abs_le.1 hexp).1
      have hp := Real.exp_pos (log a)
      nlinarith
    have hlt : exp (log a) < minArea := by
      by_contra hc
      rw [if_neg hc] at h
      linarith
    have := (abs_le.1 key).1
    linarith
  · intro h1 h2 h3
    have ha1 : a = 1 := by rw [ha, h1]; exact max_eq_right h3
    rw [hval, ha1, h1]
    have := hl 1 one_pos
    rw [Real.log_one, abs_zero, mul_zero, sub_zero] at this
    have hl0 : log 1 = 0 := abs_eq_zero.1 (le_antisymm this (abs_nonneg _))
    rw [hl0, h2, if_neg (lt_irrefl _)]

/-! ## The hypotheses are satisfiable -/

example : ExpWithin 0 Real.exp := fun x => by simp

/-- a template of three bins, the first one empty -/
example : ∃ P : ℝ → ℝ, (∀ q, Interpolation.ppfValue ![(0 : ℝ), 1, 2] (fun b => .fin (cdfValues double (fun _ => 1) ![0, 1, 2] b)) q = .ok (.fin (P q))) ∧ StrictMonoOn P (Set.Icc 0 1) := by
  apply C150_ppf double (fun _ => zero_le_one)
  · intro b; fin_cases b <;> simp
  · rfl
  · exact ⟨1, by simp⟩
  · intro i j hij
    fin_cases i <;> fin_cases j <;> first | (exact absurd hij (by decide)) | (norm_num)

end Pyirf.Rounded
