import Verif.Rounded.UnitModel
import Verif.Rounded.CoefProps
import Verif.Cuts.EvalProps
import Verif.Binning.Props

/-!
# Conversions of bin edges and cuts to another unit in rounded arithmetic (C167)

`FV.beq` is the `==` of numpy: true for equal numbers, false for NaN. A value is a floating point number if rounding does not change it: `rdFV R x = x`.
-/
set_option linter.unusedSectionVars false
set_option linter.unusedSimpArgs false

namespace Pyirf.Rounded
open Pyirf Pyirf.Np Pyirf.Binning Pyirf.Cuts

variable {R : Rounding}

/-! ## Rounding and comparisons -/

theorem rdFV_nan (v : FV ℝ) : rdFV R v = FV.nan ↔ v = FV.nan := by cases v <;> simp [rdFV]

theorem rdFV_le {a b : FV ℝ} (h : FV.le a b = true) : FV.le (rdFV R a) (rdFV R b) = true := by
  cases a <;> cases b <;> simp [FV.le, rdFV] at h ⊢
  exact R.mono h

/-- comparisons of a floating point number with a rounded number from below -/
theorem le_rd_iff {x a : FV ℝ} (hx : rdFV R x = x) : FV.le x (rdFV R a) = true ↔ FV.le x a = true ∨ FV.beq x (rdFV R a) = true := by
  constructor
  · intro h
    by_cases h' : FV.le x a = true
    · exact Or.inl h'
    · obtain ⟨hx1, ha1⟩ := FV.ne_nan_of_le h
      rw [Ne, rdFV_nan] at ha1
      have hlt := (FV.le_or_lt' hx1 ha1).resolve_left h'
      have h2 := rdFV_le (R := R) (FV.le_of_lt' hlt)
      rw [hx] at h2
      exact Or.inr ((FV.beq_iff _ _).mpr ⟨FV.le_antisymm' h h2, hx1⟩)
  · rintro (h | h)
    · have := rdFV_le (R := R) h
      rwa [hx] at this
    · simp only [FV.beq, Bool.and_eq_true] at h
      exact h.1

/-- from above -/
theorem rd_le_iff {x a : FV ℝ} (hx : rdFV R x = x) : FV.le (rdFV R a) x = true ↔ FV.le a x = true ∨ FV.beq x (rdFV R a) = true := by
  constructor
  · intro h
    by_cases h' : FV.le a x = true
    · exact Or.inl h'
    · obtain ⟨ha1, hx1⟩ := FV.ne_nan_of_le h
      rw [Ne, rdFV_nan] at ha1
      have hlt := (FV.le_or_lt' ha1 hx1).resolve_left h'
      have h2 := rdFV_le (R := R) (FV.le_of_lt' hlt)
      rw [hx] at h2
      exact Or.inr ((FV.beq_iff _ _).mpr ⟨FV.le_antisymm' h2 h, hx1⟩)
  · rintro (h | h)
    · have := rdFV_le (R := R) h
      rwa [hx] at this
    · simp only [FV.beq, Bool.and_eq_true] at h
      exact h.2

theorem lt_iff_not_le {a b : FV ℝ} (ha : a ≠ FV.nan) (hb : b ≠ FV.nan) : FV.lt a b = true ↔ ¬ FV.le b a = true := by
  constructor
  · intro h; rw [FV.not_le_of_lt h]; simp
  · intro h; exact (FV.le_or_lt' hb ha).resolve_left h

theorem lt_rd_iff {x a : FV ℝ} (hx : rdFV R x = x) : FV.lt x (rdFV R a) = true ↔ FV.lt x a = true ∧ ¬ FV.beq x (rdFV R a) = true := by
  by_cases hx1 : x = FV.nan
  · subst hx1; simp [FV.lt]
  by_cases ha1 : a = FV.nan
  · subst ha1; simp [rdFV]
  rw [lt_iff_not_le hx1 (by rwa [Ne, rdFV_nan]), rd_le_iff hx, lt_iff_not_le hx1 ha1, not_or]

theorem rd_lt_iff {x a : FV ℝ} (hx : rdFV R x = x) : FV.lt (rdFV R a) x = true ↔ FV.lt a x = true ∧ ¬ FV.beq x (rdFV R a) = true := by
  by_cases hx1 : x = FV.nan
  · subst hx1; simp
  by_cases ha1 : a = FV.nan
  · subst ha1; simp [rdFV]
  rw [lt_iff_not_le (by rwa [Ne, rdFV_nan]) hx1, le_rd_iff hx, lt_iff_not_le ha1 hx1, not_or]

/-! ## The factor -/

theorem mul_cases {f : ℝ} (hf : 0 < f) (v : FV ℝ) : v * .fin f = match v with | .fin x => FV.fin (x * f) | w => w := by
  cases v with
  | fin x => rfl
  | nan => rfl
  | pinf => exact FV.infSign_pos hf
  | ninf =>
    show FV.infSign (-f) = _
    simp [FV.infSign, hf.ne', not_lt.mpr hf.le]

theorem mul_nan {f : ℝ} (hf : 0 < f) (v : FV ℝ) : v * .fin f = FV.nan ↔ v = FV.nan := by
  rw [mul_cases hf]; cases v <;> simp

theorem mul_le {f : ℝ} (hf : 0 < f) {v w : FV ℝ} (h : FV.le v w = true) : FV.le (v * .fin f) (w * .fin f) = true := by
  rw [mul_cases hf, mul_cases hf]
  cases v <;> cases w <;> simp [FV.le] at h ⊢
  exact mul_le_mul_of_nonneg_right h hf.le

theorem toUnit_le {f : ℝ} (hf : 0 < f) {v w : FV ℝ} (h : FV.le v w = true) : FV.le (toUnit R f v) (toUnit R f w) = true := rdFV_le (mul_le hf h)

theorem toUnit_nan {f : ℝ} (hf : 0 < f) (v : FV ℝ) : toUnit R f v = FV.nan ↔ v = FV.nan := by
  unfold toUnit
  rw [rdFV_nan, mul_nan hf]

theorem toUnit_increasing {f : ℝ} (hf : 0 < f) {bins : List (FV ℝ)} (h : Increasing bins) : Increasing (bins.map (toUnit R f)) := by
  constructor
  · intro e he
    obtain ⟨v, hv, rfl⟩ := List.mem_map.mp he
    rw [Ne, toUnit_nan hf]
    exact h.1 v hv
  · exact h.2.map _ fun a b hab => toUnit_le hf hab

theorem toUnit_exact (k : ℕ) (hk : 1 ≤ k) (f : ℝ) (v : FV ℝ) : toUnit (Rounding.exact k hk) f v = v * .fin f := by
  unfold toUnit
  cases v * .fin f <;> rfl

/-! ## Bin indices -/

/-- **C167** Increasing edges stay increasing by the conversion to another unit, so that `calculate_bin_indices` never fails because of it; edges may become equal. An event is in bin `i` exactly if its value is not below the exactly converted lower edge, or equal to the rounded one, and below the exactly converted upper edge but not equal to the rounded one; accordingly for the underflow and the overflow. -/
theorem C167_bin_indices {f : ℝ} (hf : 0 < f) (data bins : List (FV ℝ)) (h : Increasing bins) (hl : 0 < bins.length) (hd : ∀ x ∈ data, rdFV R x = x) :
    ∃ res : List (ℤ × Bool), binIndicesIn R f data bins = .ok res ∧
      ∃ hlen : res.length = data.length, ∀ (k : ℕ) (hk : k < data.length),
        (∀ i : ℕ, res[k] = ((i : ℤ), true) ↔ ∃ hi : i + 1 < bins.length,
          (FV.le (bins[i] * .fin f) data[k] = true ∨ FV.beq data[k] (toUnit R f bins[i]) = true) ∧
          (FV.lt data[k] (bins[i + 1] * .fin f) = true ∧ ¬ FV.beq data[k] (toUnit R f bins[i + 1]) = true)) ∧
        (res[k] = (-2 ^ 63, false) ↔ FV.lt data[k] (bins[0] * .fin f) = true ∧ ¬ FV.beq data[k] (toUnit R f bins[0]) = true) ∧
        (res[k] = (2 ^ 63 - 1, false) ↔ (data[k] = FV.nan ∨
          FV.le (bins[bins.length - 1]'(by omega) * .fin f) data[k] = true ∨ FV.beq data[k] (toUnit R f (bins[bins.length - 1]'(by omega))) = true)) := by
  obtain ⟨res, he, hlen, hres⟩ := C01_bin_index (bins.map (toUnit R f)) data (toUnit_increasing hf h) (by simpa using hl) true
  refine ⟨res, he, hlen, fun k hk => ?_⟩
  obtain ⟨h1, h2, h3, -⟩ := hres k hk
  have hx := hd data[k] (List.getElem_mem hk)
  refine ⟨fun i => (h1 i).trans ?_, h2.trans ?_, h3.trans ?_⟩
  · unfold InBin
    constructor
    · rintro ⟨hi, ha, hb⟩
      rw [List.getElem_map] at ha hb
      exact ⟨by simpa using hi, (rd_le_iff hx).mp ha, (lt_rd_iff hx).mp hb⟩
    · rintro ⟨hi, ha, hb⟩
      refine ⟨by simpa using hi, ?_, ?_⟩
      · rw [List.getElem_map]; exact (rd_le_iff hx).mpr ha
      · rw [List.getElem_map]; exact (lt_rd_iff hx).mpr hb
  · rw [List.getElem_map]; exact lt_rd_iff hx
  · simp only [List.getElem_map, List.length_map]
    exact or_congr_right (rd_le_iff hx)

/-- Neither a bin nor the underflow nor the overflow: impossible; the index in increasing edges. -/
theorem binIdx_eq_of {e e' : List (FV ℝ)} (h : Increasing e) (h' : Increasing e') (hl : 0 < e.length) (hlen : e'.length = e.length) (x : FV ℝ)
    (hle : ∀ (i : ℕ) (hi : i < e.length), FV.le e[i] x = true ↔ FV.le (e'[i]'(by omega)) x = true)
    (hlt : ∀ (i : ℕ) (hi : i < e.length), FV.lt x e[i] = true ↔ FV.lt x (e'[i]'(by omega)) = true) : binIdx e' x = binIdx e x := by
  rcases bin_cases h hl x with hc | ⟨i, hc⟩ | hc
  · rw [binIdx_underflow h hl x hc, binIdx_underflow h' (by omega) x ((hlt 0 hl).mp hc)]
  · rw [(binIdx_inBin h x i).mpr hc]
    obtain ⟨hi, ha, hb⟩ := hc
    exact (binIdx_inBin h' x i).mpr ⟨by omega, (hle i (by omega)).mp ha, (hlt (i + 1) hi).mp hb⟩
  · rw [binIdx_overflow h hl x hc, binIdx_overflow h' (by omega) x (hc.imp_right fun hc => ?_)]
    simp only [hlen]
    exact (hle _ (by omega)).mp hc

/-- **C167** The indices are those for exactly converted edges, unless a value equals the rounded value of an edge that is exactly larger; such an event lies in a higher bin than for exact edges. If the rounded edges are distinct it lies in the next bin, which starts at this edge. -/
theorem C167_bin_indices_shift {f : ℝ} (hf : 0 < f) (data bins : List (FV ℝ)) (h : Increasing bins) (hl : 0 < bins.length) (hd : ∀ x ∈ data, rdFV R x = x) :
    ∃ res exact : List (ℤ × Bool), binIndicesIn R f data bins = .ok res ∧ calculateBinIndices true true data (bins.map (· * .fin f)) = .ok exact ∧
      ∃ (hlen : res.length = data.length) (hlen' : exact.length = data.length), ∀ (k : ℕ) (hk : k < data.length),
        ((∀ e ∈ bins, FV.beq data[k] (toUnit R f e) = true → FV.le (e * .fin f) data[k] = true) → res[k] = exact[k]) ∧
        (∀ i : ℕ, exact[k] = ((i : ℤ), true) → (∃ j : ℕ, i ≤ j ∧ res[k] = ((j : ℤ), true)) ∨ res[k] = (2 ^ 63 - 1, false)) ∧
        (exact[k] = (2 ^ 63 - 1, false) → res[k] = (2 ^ 63 - 1, false)) ∧
        ((bins.map (toUnit R f)).Pairwise (fun a b => FV.lt a b = true) → ∀ i : ℕ, exact[k] = ((i : ℤ), true) →
          res[k] = ((i : ℤ), true) ∨ ∃ hi : i + 1 < bins.length, FV.beq data[k] (toUnit R f bins[i + 1]) = true ∧
            (res[k] = (((i + 1 : ℕ) : ℤ), true) ∨ (i + 2 = bins.length ∧ res[k] = (2 ^ 63 - 1, false)))) := by
  have hinc := toUnit_increasing (R := R) hf h
  have hinc' : Increasing (bins.map (· * FV.fin f)) := by
    have := toUnit_increasing (R := Rounding.exact 1 le_rfl) hf h
    rwa [show toUnit (Rounding.exact 1 le_rfl) f = (· * FV.fin f) from funext (toUnit_exact 1 le_rfl f)] at this
  rw [show ((2 ^ 63 - 1 : ℤ)) = OVERFLOW_INDEX from rfl]
  refine ⟨_, _, calculateBinIndices_increasing hinc data (by simp), calculateBinIndices_increasing hinc' data (by simp), by simp, by simp, fun k hk => ?_⟩
  simp only [List.getElem_map]
  set x := data[k] with hxd
  have hx : rdFV R x = x := hd _ (List.getElem_mem hk)
  have hl' : 0 < (bins.map (toUnit R f)).length := by simpa using hl
  have hl'' : 0 < (bins.map (· * FV.fin f)).length := by simpa using hl
  have over : (x = FV.nan ∨ FV.le (bins[bins.length - 1]'(by omega) * .fin f) x = true) → binIdx (bins.map (toUnit R f)) x = (OVERFLOW_INDEX, false) := by
    intro hc
    refine binIdx_overflow hinc hl' x (hc.imp_right fun hc => ?_)
    simp only [List.getElem_map, List.length_map]
    exact (rd_le_iff hx).mpr (Or.inl hc)
  have bin : ∀ i : ℕ, binIdx (bins.map (· * FV.fin f)) x = ((i : ℤ), true) → ∃ hi : i + 1 < bins.length, FV.le (bins[i] * .fin f) x = true ∧ FV.lt x (bins[i + 1] * .fin f) = true := by
    intro i hi
    obtain ⟨hi, ha, hb⟩ := (binIdx_inBin hinc' x i).mp hi
    simp only [List.getElem_map] at ha hb
    exact ⟨by simpa using hi, ha, hb⟩
  have up : ∀ i : ℕ, binIdx (bins.map (· * FV.fin f)) x = ((i : ℤ), true) →
      (∃ j : ℕ, i ≤ j ∧ InBin (bins.map (toUnit R f)) j x) ∨
        FV.le ((bins.map (toUnit R f))[(bins.map (toUnit R f)).length - 1]'(by omega)) x = true := by
    intro i hi
    obtain ⟨hi, ha, hb⟩ := bin i hi
    have ha' : FV.le (toUnit R f bins[i]) x = true := (rd_le_iff hx).mpr (Or.inl ha)
    rcases bin_cases hinc hl' x with hc | ⟨j, hc⟩ | hc | hc
    · rw [List.getElem_map] at hc
      have := FV.lt_of_lt_of_le' hc (toUnit_le (R := R) hf (h.getElem_le (Nat.zero_le i) (by omega)))
      rw [FV.not_lt_of_le ha'] at this
      simp at this
    · refine Or.inl ⟨j, ?_, hc⟩
      by_contra hlt
      obtain ⟨hj, -, hc⟩ := hc
      rw [List.getElem_map] at hc
      have := FV.lt_of_lt_of_le' hc (toUnit_le (R := R) hf (h.getElem_le (show j + 1 ≤ i by omega) (by omega)))
      rw [FV.not_lt_of_le ha'] at this
      simp at this
    · exact absurd hc (FV.ne_nan_of_le ha).2
    · exact Or.inr hc
  refine ⟨fun hne => ?_, fun i hi => ?_, fun hi => ?_, fun hs i hi => ?_⟩
  · refine binIdx_eq_of hinc' hinc hl'' (by simp) x (fun i hi => ?_) (fun i hi => ?_)
    · simp only [List.getElem_map]
      have hi' : i < bins.length := by simpa using hi
      exact (((rd_le_iff hx).trans ⟨fun hh => hh.elim id (hne _ (List.getElem_mem hi')), Or.inl⟩)).symm
    · simp only [List.getElem_map]
      have hi' : i < bins.length := by simpa using hi
      refine ((lt_rd_iff hx).trans ⟨fun hh => hh.1, fun hh => ⟨hh, fun hb => ?_⟩⟩).symm
      have := hne _ (List.getElem_mem hi') hb
      rw [FV.not_le_of_lt hh] at this
      simp at this
  · rcases up i hi with ⟨j, hj, hc⟩ | hc
    · exact Or.inl ⟨j, hj, (binIdx_inBin hinc x j).mpr hc⟩
    · exact Or.inr (binIdx_overflow hinc hl' x (Or.inr hc))
  · apply over
    rcases bin_cases hinc' hl'' x with hc | ⟨j, hc⟩ | hc
    · rw [binIdx_underflow hinc' hl'' x hc] at hi
      exact absurd (congrArg Prod.fst hi) underflow_ne_overflow
    · rw [(binIdx_inBin hinc' x j).mpr hc] at hi
      simp at hi
    · simpa only [List.getElem_map, List.length_map] using hc
  · obtain ⟨hi1, ha, hb⟩ := bin i hi
    have ha' : FV.le (toUnit R f bins[i]) x = true := (rd_le_iff hx).mpr (Or.inl ha)
    by_cases hq : FV.beq x (toUnit R f bins[i + 1]) = true
    · refine Or.inr ⟨hi1, hq, ?_⟩
      simp only [FV.beq, Bool.and_eq_true] at hq
      by_cases h2 : i + 2 < bins.length
      · refine Or.inl ((binIdx_inBin hinc x (i + 1)).mpr ⟨by simpa using h2, ?_, ?_⟩)
        · rw [List.getElem_map]; exact hq.2
        · have := List.pairwise_iff_getElem.mp hs (i + 1) (i + 1 + 1) (by simpa using hi1) (by simpa using h2) (by omega)
          rw [List.getElem_map] at this
          exact FV.lt_of_le_of_lt' hq.1 this
      · have e : i + 2 = bins.length := by omega
        refine Or.inr ⟨e, binIdx_overflow hinc hl' x (Or.inr ?_)⟩
        simp only [List.getElem_map, List.length_map, ← e]
        exact hq.2
    · refine Or.inl ((binIdx_inBin hinc x i).mpr ⟨by simpa using hi1, ?_, ?_⟩)
      · rw [List.getElem_map]; exact ha'
      · rw [List.getElem_map]; exact (lt_rd_iff hx).mpr ⟨hb, hq⟩

/-- **C167** Values that are farther from an edge than one rounding of it (and the relative error `δ` of the factor itself, `f` instead of the true factor `F`) do not equal the rounded edge and lie on the same side of the rounded edge and of the true one. -/
theorem C167_far_from_edge {f F δ : ℝ} (hfac : |f - F| ≤ δ * |F|) (e x : ℝ) (hfar : ((1 + R.u) * (1 + δ) - 1) * |e * F| < |x - e * F|) :
    FV.beq (.fin x) (toUnit R f (.fin e)) = false ∧ (FV.le (toUnit R f (.fin e)) (.fin x) = true ↔ e * F ≤ x) ∧
      (FV.lt (.fin x) (toUnit R f (.fin e)) = true ↔ x < e * F) := by
  have hd : |R.rd (e * f) - e * F| ≤ ((1 + R.u) * (1 + δ) - 1) * |e * F| := by
    have h1 : |e * f - e * F| ≤ δ * |e * F| := by
      rw [← mul_sub, abs_mul, abs_mul]
      nlinarith [mul_le_mul_of_nonneg_left hfac (abs_nonneg e)]
    have h2 := R.close (e * f)
    have h3 : |e * f| ≤ (1 + δ) * |e * F| := by
      have := abs_add_le (e * f - e * F) (e * F)
      rw [sub_add_cancel] at this
      linarith
    have h4 := abs_add_le (R.rd (e * f) - e * f) (e * f - e * F)
    rw [sub_add_sub_cancel] at h4
    have h5 := mul_le_mul_of_nonneg_left h3 R.u_nonneg
    nlinarith
  have e1 : toUnit R f (.fin e) = .fin (R.rd (e * f)) := rfl
  rw [e1]
  have hlt := hd.trans_lt hfar
  have hs : (R.rd (e * f) < x ↔ e * F < x) ∧ R.rd (e * f) ≠ x ∧ e * F ≠ x := by
    obtain ⟨ha, hb⟩ := abs_lt.mp hlt
    rcases abs_cases (x - e * F) with ⟨hc, hc'⟩ | ⟨hc, hc'⟩
    · have hne : e * F ≠ x := by
        intro h
        rw [h, sub_self] at hlt hc
        rw [abs_zero] at hlt
        exact absurd hlt (not_lt.mpr (abs_nonneg _))
      have := lt_of_le_of_ne (by linarith : e * F ≤ x) hne
      exact ⟨⟨fun _ => this, fun _ => by linarith⟩, by intro h; linarith, hne⟩
    · have h1 : x < R.rd (e * f) := by linarith
      exact ⟨⟨fun h => absurd h (not_lt.mpr h1.le), fun h => by linarith⟩, by intro h; linarith, by intro h; linarith⟩
  obtain ⟨h1, h2, h3⟩ := hs
  refine ⟨?_, ?_, ?_⟩
  · rw [← Bool.not_eq_true, FV.beq_iff]
    rintro ⟨h, -⟩
    exact h2 (FV.fin.inj h).symm
  · rw [FV.le_fin, decide_eq_true_eq]
    exact ⟨fun h => (h1.mp (lt_of_le_of_ne h h2)).le, fun h => (h1.mpr (lt_of_le_of_ne h h3)).le⟩
  · rw [FV.lt_fin, decide_eq_true_eq]
    constructor
    · intro h
      exact lt_of_le_of_ne (not_lt.mp fun h' => absurd (h1.mpr h') (not_lt.mpr h.le)) (Ne.symm h3)
    · intro h
      exact lt_of_le_of_ne (not_lt.mp fun h' => absurd (h1.mp h') (not_lt.mpr h.le)) (Ne.symm h2)

/-- **C167** If all values are farther than that from all edges, the indices are those for the edges converted with the true factor `F` without rounding. -/
theorem C167_far_indices {f F δ : ℝ} (hf : 0 < f) (hF : 0 < F) (hfac : |f - F| ≤ δ * |F|) (data bins : List ℝ) (h : bins.Pairwise (· ≤ ·)) (hl : 0 < bins.length)
    (hfar : ∀ x ∈ data, ∀ e ∈ bins, ((1 + R.u) * (1 + δ) - 1) * |e * F| < |x - e * F|) :
    binIndicesIn R f (data.map .fin) (bins.map .fin) = calculateBinIndices true true (data.map .fin) (bins.map fun e => .fin (e * F)) := by
  have hi : Increasing (bins.map FV.fin) := by
    constructor
    · intro e he
      obtain ⟨v, -, rfl⟩ := List.mem_map.mp he
      simp
    · exact h.map _ fun a b hab => by simpa [FV.le] using hab
  have hinc := toUnit_increasing (R := R) hf hi
  have hinc' := toUnit_increasing (R := Rounding.exact 1 le_rfl) hF hi
  rw [show (bins.map FV.fin).map (toUnit (Rounding.exact 1 le_rfl) F) = bins.map fun e => .fin (e * F) from by
    rw [List.map_map]; exact List.map_congr_left fun e _ => by rw [Function.comp, toUnit_exact, FV.fin_mul_fin]] at hinc'
  unfold binIndicesIn
  rw [calculateBinIndices_increasing hinc _ (by simp), calculateBinIndices_increasing hinc' _ (by simp)]
  congr 1
  refine List.map_congr_left fun v hv => ?_
  obtain ⟨x, hx, rfl⟩ := List.mem_map.mp hv
  refine binIdx_eq_of hinc' hinc (by simpa using hl) (by simp) _ (fun i hi => ?_) (fun i hi => ?_)
  · have hi' : i < bins.length := by simpa using hi
    simp only [List.getElem_map]
    rw [(C167_far_from_edge hfac bins[i] x (hfar x hx _ (List.getElem_mem hi'))).2.1, FV.le_fin, decide_eq_true_eq]
  · have hi' : i < bins.length := by simpa using hi
    simp only [List.getElem_map]
    rw [(C167_far_from_edge hfac bins[i] x (hfar x hx _ (List.getElem_mem hi'))).2.2, FV.lt_fin, decide_eq_true_eq]

/-! ## Cuts -/

theorem tableIn_wellFormed {f g : ℝ} (hf : 0 < f) {t : CutTable ℝ (FV ℝ)} (h : WellFormed t) : WellFormed (tableIn R f g t) where
  pos := by simpa [tableIn] using h.pos
  lenHigh := by simpa [tableIn] using h.lenHigh
  lenCut := by simpa [tableIn] using h.lenCut
  contiguous := by
    intro i hi
    have hi' : i + 1 < t.low.length := by simpa [tableIn] using hi
    simp only [tableIn, List.getElem_map]
    rw [h.contiguous i hi']
  incLow := toUnit_increasing hf h.incLow
  incLast := by
    simp only [tableIn, List.getElem_map, List.length_map]
    exact toUnit_le hf h.incLast

/-- **C167** Cuts with units: an event passes `value <= cut` (`operator.le`) exactly if it is in a bin, decided as for the bin indices, and its value is not above the exactly converted cut of that bin or equals the rounded one; it passes `value < cut` (`operator.lt`) if its value is below the exactly converted cut and not equal to the rounded one; `>=` and `>` likewise. -/
theorem C167_cuts {f g : ℝ} (hf : 0 < f) (t : CutTable ℝ (FV ℝ)) (h : WellFormed t) (values binValues : List (FV ℝ)) (hlen : values.length = binValues.length)
    (hv : ∀ x ∈ values, rdFV R x = x) (hb : ∀ x ∈ binValues, rdFV R x = x) :
    ∃ le lt ge gt : List Bool, evaluateCutIn R f g values binValues t FV.le = .ok le ∧ evaluateCutIn R f g values binValues t FV.lt = .ok lt ∧
      evaluateCutIn R f g values binValues t FV.ge = .ok ge ∧ evaluateCutIn R f g values binValues t FV.gt = .ok gt ∧
      ∃ (h1 : le.length = values.length) (h2 : lt.length = values.length) (h3 : ge.length = values.length) (h4 : gt.length = values.length),
        ∀ (k : ℕ) (hk : k < values.length),
          let InRow : ℕ → Prop := fun i => ∃ (hi : i < t.low.length) (hi' : i < t.high.length),
            (FV.le (t.low[i] * .fin f) binValues[k] = true ∨ FV.beq binValues[k] (toUnit R f t.low[i]) = true) ∧
            (FV.lt binValues[k] (t.high[i] * .fin f) = true ∧ ¬ FV.beq binValues[k] (toUnit R f t.high[i]) = true)
          (le[k] = true ↔ ∃ (i : ℕ) (hi : i < t.cut.length), InRow i ∧ (FV.le values[k] (t.cut[i] * .fin g) = true ∨ FV.beq values[k] (toUnit R g t.cut[i]) = true)) ∧
          (lt[k] = true ↔ ∃ (i : ℕ) (hi : i < t.cut.length), InRow i ∧ (FV.lt values[k] (t.cut[i] * .fin g) = true ∧ ¬ FV.beq values[k] (toUnit R g t.cut[i]) = true)) ∧
          (ge[k] = true ↔ ∃ (i : ℕ) (hi : i < t.cut.length), InRow i ∧ (FV.le (t.cut[i] * .fin g) values[k] = true ∨ FV.beq values[k] (toUnit R g t.cut[i]) = true)) ∧
          (gt[k] = true ↔ ∃ (i : ℕ) (hi : i < t.cut.length), InRow i ∧ (FV.lt (t.cut[i] * .fin g) values[k] = true ∧ ¬ FV.beq values[k] (toUnit R g t.cut[i]) = true)) := by
  have hw := tableIn_wellFormed (R := R) (g := g) hf h
  obtain ⟨r1, e1, l1, s1⟩ := C11_evaluate_binned_cut _ hw FV.le values binValues hlen
  obtain ⟨r2, e2, l2, s2⟩ := C11_evaluate_binned_cut _ hw FV.lt values binValues hlen
  obtain ⟨r3, e3, l3, s3⟩ := C11_evaluate_binned_cut _ hw FV.ge values binValues hlen
  obtain ⟨r4, e4, l4, s4⟩ := C11_evaluate_binned_cut _ hw FV.gt values binValues hlen
  refine ⟨r1, r2, r3, r4, e1, e2, e3, e4, l1, l2, l3, l4, fun k hk => ?_⟩
  intro InRow
  have hx := hv _ (List.getElem_mem hk)
  have hy := hb binValues[k] (List.getElem_mem (by omega))
  have row : ∀ i, RowContains (tableIn R f g t) i binValues[k] ↔ InRow i := by
    intro i
    unfold RowContains
    constructor
    · rintro ⟨hi, hi', ha, hc⟩
      simp only [tableIn, List.getElem_map] at ha hc
      exact ⟨by simpa [tableIn] using hi, by simpa [tableIn] using hi', (rd_le_iff hy).mp ha, (lt_rd_iff hy).mp hc⟩
    · rintro ⟨hi, hi', ha, hc⟩
      refine ⟨by simpa [tableIn] using hi, by simpa [tableIn] using hi', ?_, ?_⟩
      · simp only [tableIn, List.getElem_map]; exact (rd_le_iff hy).mpr ha
      · simp only [tableIn, List.getElem_map]; exact (lt_rd_iff hy).mpr hc
  have lift : ∀ (op : FV ℝ → FV ℝ → Bool) (P : FV ℝ → Prop), (∀ c, op values[k] (toUnit R g c) = true ↔ P c) →
      ((∃ (i : ℕ) (hi : i < (tableIn R f g t).cut.length), RowContains (tableIn R f g t) i binValues[k] ∧ op values[k] (tableIn R f g t).cut[i] = true) ↔
        ∃ (i : ℕ) (hi : i < t.cut.length), InRow i ∧ P t.cut[i]) := by
    intro op P hP
    constructor
    · rintro ⟨i, hi, ha, hc⟩
      refine ⟨i, by simpa [tableIn] using hi, (row i).mp ha, (hP _).mp ?_⟩
      simpa only [tableIn, List.getElem_map] using hc
    · rintro ⟨i, hi, ha, hc⟩
      refine ⟨i, by simpa [tableIn] using hi, (row i).mpr ha, ?_⟩
      simp only [tableIn, List.getElem_map]
      exact (hP _).mpr hc
  refine ⟨(s1 k hk).trans (lift FV.le (fun c => FV.le values[k] (c * .fin g) = true ∨ FV.beq values[k] (toUnit R g c) = true) fun c => le_rd_iff hx),
    (s2 k hk).trans (lift FV.lt (fun c => FV.lt values[k] (c * .fin g) = true ∧ ¬ FV.beq values[k] (toUnit R g c) = true) fun c => lt_rd_iff hx),
    (s3 k hk).trans (lift FV.ge (fun c => FV.le (c * .fin g) values[k] = true ∨ FV.beq values[k] (toUnit R g c) = true) fun c => by show FV.le (toUnit R g c) values[k] = true ↔ _; exact rd_le_iff hx),
    (s4 k hk).trans (lift FV.gt (fun c => FV.lt (c * .fin g) values[k] = true ∧ ¬ FV.beq values[k] (toUnit R g c) = true) fun c => by show FV.lt (toUnit R g c) values[k] = true ↔ _; exact rd_lt_iff hx)⟩

/-! ## A value exactly at an edge -/

/-- **C167** (deviation) In double precision the edge 0.1 TeV (the closest floating point number, which is larger) becomes exactly 100 GeV, so that an event of 100 GeV, which is below that edge, is put into the bin above it. -/
theorem C167_edge_deviation :
    binIndicesIn double 1000 [.fin 100] [.fin 0, .fin (3602879701896397 * 2 ^ (-55 : ℤ)), .fin 1] = .ok [(1, true)] ∧
    calculateBinIndices true true [.fin 100] ([.fin 0, .fin (3602879701896397 * 2 ^ (-55 : ℤ)), .fin 1].map (· * FV.fin (1000 : ℝ))) = .ok [(0, true)] := by
  have e1 : double.rd (3602879701896397 * 2 ^ (-55 : ℤ) * 1000) = 100 := by
    have := Binary.rd_eq 53 (x := 3602879701896397 * 2 ^ (-55 : ℤ) * 1000) (m := 7036874417766400) (e := -46) (by norm_num) (by norm_num) (by norm_num) (by norm_num) (by norm_num)
    refine Eq.trans this ?_
    norm_num
  have e0 : double.rd (0 * 1000) = 0 := by rw [zero_mul]; exact double.zero
  have inc : Increasing ([.fin 0, .fin (3602879701896397 * 2 ^ (-55 : ℤ)), .fin 1] : List (FV ℝ)) := by
    constructor
    · simp
    · simp [FV.le]; norm_num
  have h0 := toUnit_increasing (R := double) (f := 1000) (by norm_num) inc
  have h1 := toUnit_increasing (R := Rounding.exact 1 le_rfl) (f := 1000) (by norm_num) inc
  rw [show toUnit (Rounding.exact 1 le_rfl) 1000 = (· * FV.fin 1000) from funext (toUnit_exact 1 le_rfl 1000)] at h1
  constructor
  · unfold binIndicesIn
    rw [calculateBinIndices_increasing h0 _ (by simp)]
    have : InBin ([.fin 0, .fin (3602879701896397 * 2 ^ (-55 : ℤ)), .fin 1].map (toUnit double 1000)) 1 (.fin 100) := by
      refine ⟨by simp, ?_, ?_⟩
      · show FV.le (.fin (double.rd (3602879701896397 * 2 ^ (-55 : ℤ) * 1000))) (.fin 100) = true
        rw [e1]; simp [FV.le]
      · show FV.lt (.fin 100) (.fin (double.rd (1 * 1000))) = true
        have : double.rd (1 * 1000) = 1000 := by
          rw [one_mul]
          exact_mod_cast double.nat 1000 (by decide)
        rw [this]; norm_num [FV.lt]
    simpa using (binIdx_inBin h0 _ 1).mpr this
  · rw [calculateBinIndices_increasing h1 _ (by simp)]
    have : InBin ([.fin 0, .fin (3602879701896397 * 2 ^ (-55 : ℤ)), .fin 1].map (· * FV.fin (1000 : ℝ))) 0 (.fin 100) := by
      refine ⟨by simp, ?_, ?_⟩
      · show FV.le (.fin (0 * 1000)) (.fin 100) = true
        norm_num [FV.le]
      · show FV.lt (.fin 100) (.fin (3602879701896397 * 2 ^ (-55 : ℤ) * 1000)) = true
        norm_num [FV.lt]
    simpa using (binIdx_inBin h1 _ 0).mpr this

/-- the hypotheses are met: factors, edges, a table and values -/
example : Increasing ([.fin 0, .fin 1, .pinf] : List (FV ℝ)) ∧ (∀ x ∈ ([.fin 100, .pinf] : List (FV ℝ)), rdFV double x = x) ∧
    WellFormed (⟨[.fin 0, .fin 1], [.fin 1, .pinf], [.fin 1, .fin 2], [1, 2], [.fin 3, .fin 4]⟩ : CutTable ℝ (FV ℝ)) ∧
    ((1 + double.u) * (1 + double.u) - 1) * |(0.1 : ℝ) * 1000| < |(101 : ℝ) - 0.1 * 1000| := by
  refine ⟨⟨by simp, by simp [FV.le]⟩, ?_, ⟨by simp, by simp, by simp, ?_, ⟨by simp, by simp [FV.le]⟩, by simp [FV.le]⟩, ?_⟩
  · intro x hx
    rcases List.mem_cons.mp hx with rfl | hx
    · show FV.fin (double.rd 100) = _
      rw [show double.rd 100 = 100 from by exact_mod_cast double.nat 100 (by decide)]
    · rw [List.mem_singleton.mp hx]; rfl
  · intro i hi
    have : i = 0 := by simp at hi; omega
    subst this
    rfl
  · show ((1 + (1 / 2) ^ 53) * (1 + (1 / 2) ^ 53) - 1) * |(0.1 : ℝ) * 1000| < |(101 : ℝ) - 0.1 * 1000|
    norm_num

end Pyirf.Rounded
