import Verif.Binning.Model
import Mathlib.Tactic.FieldSimp
import Mathlib.Tactic.Positivity
import Mathlib.Tactic.NormNum

/-! # Helper lemmas about the binning model -/
set_option linter.unusedSectionVars false
set_option linter.unusedSimpArgs false

namespace Pyirf.Binning
open Pyirf
variable {K : Type*} [Field K] [LinearOrder K]

/-- Index and validity of one value for edges that `np.digitize` treats as increasing. -/
def binIdx (bins : List (FV K)) (x : FV K) : ℤ × Bool := binIndexOf bins.length (Np.searchsortedRight bins x)

theorem calculateBinIndices_increasing {bins : List (FV K)} (h : Increasing bins) (data : List (FV K))
    {du bu : Bool} (hu : (du && !bu) = false) :
    calculateBinIndices du bu data bins = .ok (data.map (binIdx bins)) := by
  unfold calculateBinIndices
  rw [hu, h.monotonicity]
  simp only [Bool.false_eq_true, if_false, one_ne_zero]
  congr 1
  apply List.map_congr_left
  intro x _
  rw [digitize_increasing h]
  rfl

theorem binIdx_inBin {bins : List (FV K)} (h : Increasing bins) (x : FV K) (i : ℕ) :
    binIdx bins x = ((i : ℤ), true) ↔ InBin bins i x := by
  have hcl := searchsortedRight_le bins x
  unfold binIdx binIndexOf
  simp only [Prod.mk.injEq, Bool.and_eq_true, Bool.not_eq_true', decide_eq_false_iff_not]
  set c := Np.searchsortedRight bins x with hc
  constructor
  · rintro ⟨h1, h2, h3⟩
    simp only [h2, h3, decide_false, Bool.false_eq_true, if_false] at h1
    have hci : c = i + 1 := by omega
    have hi : i + 1 < bins.length := by omega
    have h4 : ¬ (x = FV.nan ∨ FV.le bins[i+1] x = true) := fun hh =>
      absurd ((lt_searchsortedRight h x (i+1) hi).mpr hh) (by omega)
    have hxn : x ≠ FV.nan := fun hh => h4 (Or.inl hh)
    refine ⟨hi, ?_, ?_⟩
    · exact ((lt_searchsortedRight h x i (by omega)).mp (by omega)).resolve_left hxn
    · rcases FV.le_or_lt' (h.getElem_ne_nan hi) hxn with h5 | h5
      · exact absurd (Or.inr h5) h4
      · exact h5
  · rintro ⟨hi, h1, h2⟩
    have hxn : x ≠ FV.nan := (FV.ne_nan_of_le h1).2
    have hc1 : i < c := (lt_searchsortedRight h x i (by omega)).mpr (Or.inr h1)
    have hc2 : ¬ (i + 1 < c) := fun hh => by
      rcases (lt_searchsortedRight h x (i+1) hi).mp hh with h5 | h5
      · exact hxn h5
      · rw [FV.not_le_of_lt h2] at h5; exact absurd h5 (by simp)
    have hci : c = i + 1 := by omega
    rw [hci]
    have e1 : ¬ (((i + 1 : ℕ) : ℤ) - 1 < 0) := by push_cast; omega
    have e2 : ¬ (((i + 1 : ℕ) : ℤ) - 1 ≥ (bins.length : ℤ) - 1) := by push_cast; omega
    refine ⟨?_, e1, e2⟩
    simp only [e1, e2, decide_false, Bool.false_eq_true, if_false]
    push_cast; ring

theorem binIdx_underflow {bins : List (FV K)} (h : Increasing bins) (hl : 0 < bins.length) (x : FV K) :
    FV.lt x bins[0] = true → binIdx bins x = (UNDERFLOW_INDEX, false) := by
  intro hx
  have hc : Np.searchsortedRight bins x = 0 := by
    by_contra hne
    rcases (lt_searchsortedRight h x 0 hl).mp (by omega) with h5 | h5
    · subst h5; simp at hx
    · rw [FV.not_le_of_lt hx] at h5; exact absurd h5 (by simp)
  unfold binIdx binIndexOf
  rw [hc]
  have e2 : ¬ (((0 : ℕ) : ℤ) - 1 ≥ (bins.length : ℤ) - 1) := by push_cast; omega
  simp only [e2]
  simp

theorem binIdx_overflow {bins : List (FV K)} (h : Increasing bins) (hl : 0 < bins.length) (x : FV K) :
    (x = FV.nan ∨ FV.le (bins[bins.length - 1]'(by omega)) x = true) →
      binIdx bins x = (OVERFLOW_INDEX, false) := by
  intro hx
  have hc : Np.searchsortedRight bins x = bins.length := by
    have := (lt_searchsortedRight h x (bins.length - 1) (by omega)).mpr hx
    have := searchsortedRight_le bins x
    omega
  unfold binIdx binIndexOf
  rw [hc]
  simp

/-- The three cases of the specification are exhaustive. -/
theorem bin_cases {bins : List (FV K)} (h : Increasing bins) (hl : 0 < bins.length) (x : FV K) :
    (FV.lt x bins[0] = true) ∨ (∃ i, InBin bins i x) ∨
      (x = FV.nan ∨ FV.le (bins[bins.length - 1]'(by omega)) x = true) := by
  by_cases hxn : x = FV.nan
  · exact Or.inr (Or.inr (Or.inl hxn))
  rcases FV.le_or_lt' (h.getElem_ne_nan hl) hxn with h0 | h0
  · rcases FV.le_or_lt' (h.getElem_ne_nan (show bins.length - 1 < bins.length by omega)) hxn with h1 | h1
    · exact Or.inr (Or.inr (Or.inr h1))
    · right; left
      have hl2 : 2 ≤ bins.length := by
        by_contra hc
        have : bins.length = 1 := by omega
        have e : bins[bins.length - 1]'(by omega) = bins[0] := by congr 1; omega
        rw [e, FV.not_lt_of_le h0] at h1
        exact absurd h1 (by simp)
      obtain ⟨i, hi, h2, h3⟩ := exists_inHistBin h hl2 ⟨hl, h0, FV.le_of_lt' h1⟩
      rcases h3 with h3 | ⟨h3, h4⟩
      · exact ⟨i, hi, h2, h3⟩
      · refine ⟨i, hi, h2, ?_⟩
        have e : bins[i+1] = bins[bins.length - 1]'(by omega) := by congr 1; omega
        rw [e]; exact h1
  · exact Or.inl h0

theorem underflow_ne_overflow : UNDERFLOW_INDEX ≠ OVERFLOW_INDEX := by
  unfold UNDERFLOW_INDEX OVERFLOW_INDEX; norm_num

theorem inBin_unique {es : List (FV K)} (h : Increasing es) {i j : ℕ} {x : FV K}
    (hi : InBin es i x) (hj : InBin es j x) : i = j := inHistBin_unique h hi.inHistBin hj.inHistBin

theorem cumsum0_zero {n : ℕ} (data : Fin n → K) : cumsum0 data 0 = 0 := by simp [cumsum0]

theorem cumsum0_last {n : ℕ} (data : Fin n → K) : cumsum0 data (Fin.last n) = ∑ j, data j := by
  simp [cumsum0]

theorem cumsum0_sub {n : ℕ} (data : Fin n → K) (a b : Fin (n + 1)) (hab : a ≤ b) :
    cumsum0 data b - cumsum0 data a = ∑ j : Fin n, if a.val ≤ j.val ∧ j.val < b.val then data j else 0 := by
  unfold cumsum0
  rw [← Finset.sum_sub_distrib]
  apply Finset.sum_congr rfl
  intro j _
  have : a.val ≤ b.val := hab
  by_cases h1 : j.val < a.val
  · have h2 : j.val < b.val := by omega
    have h3 : ¬ (a.val ≤ j.val ∧ j.val < b.val) := by omega
    simp [h1, h2, h3]
  · by_cases h2 : j.val < b.val
    · have h3 : (a.val ≤ j.val ∧ j.val < b.val) := by omega
      simp [h1, h2, h3]
    · have h3 : ¬ (a.val ≤ j.val ∧ j.val < b.val) := by omega
      simp [h1, h2, h3]

end Pyirf.Binning
