import Verif.Simulations.Model
import Mathlib.Analysis.SpecialFunctions.Integrals.Basic
import Mathlib.MeasureTheory.Integral.Bochner.Set

/-!
# Simulated showers per energy bin (C26, C27, C28, C80, C81)
-/
set_option linter.unusedSectionVars false
set_option linter.unusedSimpArgs false

namespace Pyirf.Simulations
open Pyirf Pyirf.Np MeasureTheory

/-! ## Specification -/

/-- Probability density of the simulated energies: a power law with the given index on `[eMin, eMax]`. -/
noncomputable def energyPdf (s : Info) (E : ℝ) : ℝ := E ^ s.spectralIndex / ∫ x in s.energyMin..s.energyMax, x ^ s.spectralIndex

/-- The simulated energies that lie in the bin `[lo, hi)`. -/
def simulatedIn (s : Info) (lo hi : FV ℝ) : Set ℝ :=
  {E | s.energyMin ≤ E ∧ E ≤ s.energyMax ∧ FV.le lo (.fin E) = true ∧ FV.lt (.fin E) hi = true}

/-- The expected number of simulated showers in the bin: number of showers times probability. -/
noncomputable def expectedShowers (s : Info) (lo hi : FV ℝ) : ℝ := s.nShowers * ∫ E in simulatedIn s lo hi, energyPdf s E

/-- A simulation with a non-empty range of positive energies and index below -1. -/
structure Valid (s : Info) : Prop where
  pos : 0 < s.energyMin
  lt : s.energyMin < s.energyMax
  index : s.spectralIndex < -1
  showers : 0 < s.nShowers

/-- A bin: two ordered energies, possibly 0 or infinite. -/
structure IsBin (lo hi : FV ℝ) : Prop where
  nonneg : FV.le (.fin 0) lo = true
  lt : FV.lt lo hi = true

/-- The bin reaches beyond both ends of the simulated range. -/
def StrictlyContainsRange (s : Info) (lo hi : FV ℝ) : Prop :=
  FV.lt lo (.fin s.energyMin) = true ∧ FV.lt (.fin s.energyMax) hi = true

/-! ## Lemmas -/

/-- an edge moved into the simulated range -/
noncomputable def clip (s : Info) : FV ℝ → ℝ
  | .fin x => max s.energyMin (min x s.energyMax)
  | .pinf => s.energyMax
  | _ => s.energyMin

/-- the antiderivative of the probability density, up to a constant -/
noncomputable def cdf (s : Info) (x : ℝ) : ℝ :=
  x ^ (s.spectralIndex + 1) / (s.energyMax ^ (s.spectralIndex + 1) - s.energyMin ^ (s.spectralIndex + 1))

theorem clip_mem (s : Info) (h : s.energyMin < s.energyMax) (x : FV ℝ) : s.energyMin ≤ clip s x ∧ clip s x ≤ s.energyMax := by
  cases x <;> simp [clip, h.le]

theorem clip_mono (s : Info) (h : s.energyMin < s.energyMax) {x y : FV ℝ} (hxy : FV.le x y = true) : clip s x ≤ clip s y := by
  cases x <;> cases y <;> simp [FV.le] at hxy <;> simp [clip, h.le]
  rename_i a b
  have := max_le_max (le_refl s.energyMin) (min_le_min hxy (le_refl s.energyMax))
  simpa [h.le] using this

theorem rpow_diff_neg {a b p : ℝ} (ha : 0 < a) (hab : a < b) (hp : p < 0) : b ^ p - a ^ p < 0 := by
  have := Real.rpow_lt_rpow_of_neg ha hab hp
  linarith

theorem energyIntegral_eq {s : Info} (hv : Valid s) {lo hi : FV ℝ} (hb : IsBin lo hi) (hc : ¬ StrictlyContainsRange s lo hi) :
    energyIntegral s lo hi = .fin (cdf s (clip s hi) - cdf s (clip s lo)) := by
  obtain ⟨h0, h1, h2, -⟩ := hv
  have h0' : 0 < s.energyMax := h0.trans h1
  have hp : s.spectralIndex + 1 < 0 := by linarith
  have hD := rpow_diff_neg h0 h1 hp
  have hnorm : ∀ x y : ℝ, (FV.fin x - FV.fin y) * (FV.fin 1 / (FV.fin (s.energyMax ^ (s.spectralIndex + 1)) -
      FV.fin (s.energyMin ^ (s.spectralIndex + 1)))) =
      FV.fin (x / (s.energyMax ^ (s.spectralIndex + 1) - s.energyMin ^ (s.spectralIndex + 1)) -
        y / (s.energyMax ^ (s.spectralIndex + 1) - s.energyMin ^ (s.spectralIndex + 1))) := by
    intro x y
    rw [FV.fin_sub_fin, FV.fin_sub_fin, FV.fin_div_fin _ _ hD.ne, FV.fin_mul_fin]
    congr 1; ring
  obtain ⟨hb1, hb2⟩ := hb
  unfold StrictlyContainsRange at hc
  unfold energyIntegral powerlawPdfIntegral cdf FV.ge FV.gt
  cases lo with
  | nan => simp at hb2
  | ninf => simp [FV.le] at hb1
  | pinf => cases hi <;> simp [FV.lt] at hb2
  | fin a =>
    simp only [FV.le_fin, decide_eq_true_eq] at hb1
    cases hi with
    | nan => simp at hb2
    | ninf => simp [FV.lt] at hb2
    | pinf =>
      simp only [FV.lt_fin, FV.lt, decide_eq_true_eq, not_and, not_true, imp_false, not_lt] at hc
      have ha : 0 < a := lt_of_lt_of_le h0 hc
      simp only [FV.le, FV.lt, decide_eq_true_eq, if_false, Bool.false_eq_true, Bool.true_and, not_lt.mpr hc, FV.pow_fin h0,
        FV.pow_fin h0', FV.pow_fin ha, hnorm, clip]
      by_cases h : s.energyMax ≤ a
      · simp [h, not_lt.mpr h, h1.le]
      · simp [not_le.mp h, max_eq_right hc, (not_le.mp h).le]
    | fin b =>
      simp only [FV.lt_fin, decide_eq_true_eq, not_and, not_lt] at hc hb2
      have hb0 : 0 < b := lt_of_le_of_lt hb1 hb2
      simp only [FV.le_fin, FV.lt_fin, decide_eq_true_eq, Bool.and_eq_true, FV.pow_fin h0,
        FV.pow_fin h0', FV.pow_fin hb0, hnorm, clip]
      by_cases c1 : a < s.energyMin
      · have c2 := hc c1
        by_cases c3 : s.energyMin < b
        · simp [c1, c3, c2, c3.le, (c1.trans h1).le, c1.le]
        · have c3' := not_lt.mp c3
          simp [c3', not_lt.mpr c3', not_le.mpr (c1.trans h1), not_lt.mpr (c3'.trans h1.le), (c1.trans h1).le, c1.le, c3'.trans h1.le]
      · have c1' := not_lt.mp c1
        have ha : 0 < a := lt_of_lt_of_le h0 c1'
        simp only [c1, and_false, if_false, FV.pow_fin ha, hnorm, not_le.mpr (lt_of_le_of_lt c1' hb2)]
        by_cases c4 : s.energyMax ≤ a
        · have c5 : s.energyMax ≤ b := c4.trans hb2.le
          simp [c4, not_lt.mpr c4, c5, h1.le]
        · have c4' := not_le.mp c4
          by_cases c5 : s.energyMax < b
          · simp [c5, c4', c5.le, c4'.le, h1.le, c1']
          · have c5' := not_lt.mp c5
            simp [c4, c5, c5', c4'.le, c1', (c1'.trans hb2.le)]

theorem integral_sandwich {f : ℝ → ℝ} {S : Set ℝ} {a b : ℝ} (hab : a ≤ b) (h1 : Set.Ioo a b ⊆ S) (h2 : S ⊆ Set.Icc a b) :
    ∫ x in S, f x = ∫ x in a..b, f x := by
  rw [intervalIntegral.integral_of_le hab]
  apply setIntegral_congr_set
  have e1 : Set.Ioo a b ≤ᵐ[volume] S := h1.eventuallyLE
  have e2 : S ≤ᵐ[volume] Set.Icc a b := h2.eventuallyLE
  have e3 : S ≤ᵐ[volume] Set.Ioo a b := e2.trans (Ioo_ae_eq_Icc (μ := volume) (a := a) (b := b)).symm.le
  exact (Filter.EventuallyLE.antisymm e3 e1).trans Ioo_ae_eq_Ioc

theorem simulatedIn_sandwich {s : Info} (hlt : s.energyMin < s.energyMax) {lo hi : FV ℝ} (hb : IsBin lo hi) :
    clip s lo ≤ clip s hi ∧ Set.Ioo (clip s lo) (clip s hi) ⊆ simulatedIn s lo hi ∧
      simulatedIn s lo hi ⊆ Set.Icc (clip s lo) (clip s hi) := by
  have hm := clip_mono s hlt (FV.le_of_lt' hb.lt)
  obtain ⟨hb1, hb2⟩ := hb
  refine ⟨hm, ?_, ?_⟩
  · rintro E ⟨e1, e2⟩
    have q1 := (clip_mem s hlt lo).1
    have q2 := (clip_mem s hlt hi).2
    refine ⟨by linarith, by linarith, ?_, ?_⟩
    · cases lo with
      | fin a =>
        simp only [clip, max_lt_iff, min_lt_iff] at e1
        simp only [FV.le_fin, decide_eq_true_eq]
        rcases e1.2 with h | h
        · exact h.le
        · linarith
      | nan => simp at hb2
      | ninf => simp [FV.le]
      | pinf => simp only [clip] at e1; linarith
    · cases hi with
      | fin b =>
        simp only [clip, lt_max_iff, lt_min_iff] at e2
        simp only [FV.lt_fin, decide_eq_true_eq]
        rcases e2 with h | h
        · linarith
        · exact h.1
      | nan => simp at hb2
      | ninf => simp only [clip] at e2; linarith
      | pinf => simp [FV.lt]
  · rintro E ⟨e1, e2, e3, e4⟩
    constructor
    · cases lo with
      | fin a => simp only [FV.le_fin, decide_eq_true_eq] at e3; simp [clip, e1, e3]
      | nan => simp at hb2
      | ninf => simpa [clip] using e1
      | pinf => simp [FV.le] at e3
    · cases hi with
      | fin b => simp only [FV.lt_fin, decide_eq_true_eq] at e4; simp [clip, e2, e4.le]
      | nan => simp at hb2
      | ninf => simp [FV.lt] at e4
      | pinf => simpa [clip] using e2

theorem integral_power {s : Info} (hv : Valid s) {a b : ℝ} (ha : s.energyMin ≤ a) (hab : a ≤ b) :
    ∫ x in a..b, x ^ s.spectralIndex = (b ^ (s.spectralIndex + 1) - a ^ (s.spectralIndex + 1)) / (s.spectralIndex + 1) := by
  apply integral_rpow
  right
  refine ⟨by linarith [hv.index], ?_⟩
  rw [Set.uIcc_of_le hab]
  intro h
  linarith [h.1, hv.pos]

theorem expectedShowers_eq {s : Info} (hv : Valid s) {lo hi : FV ℝ} (hb : IsBin lo hi) :
    expectedShowers s lo hi = s.nShowers * (cdf s (clip s hi) - cdf s (clip s lo)) := by
  obtain ⟨h1, h2, h3⟩ := simulatedIn_sandwich hv.lt hb
  unfold expectedShowers energyPdf
  rw [integral_sandwich h1 h2 h3, intervalIntegral.integral_div, integral_power hv (clip_mem s hv.lt lo).1 h1,
    integral_power hv le_rfl hv.lt.le]
  have hp : s.spectralIndex + 1 ≠ 0 := by linarith [hv.index]
  have hD := rpow_diff_neg hv.pos hv.lt (p := s.spectralIndex + 1) (by linarith [hv.index])
  unfold cdf
  have hD' := hD.ne
  field_simp

theorem cdf_mono {s : Info} (hv : Valid s) {x y : ℝ} (hx : s.energyMin ≤ x) (hxy : x ≤ y) : cdf s x ≤ cdf s y := by
  have hD := rpow_diff_neg hv.pos hv.lt (p := s.spectralIndex + 1) (by linarith [hv.index])
  unfold cdf
  rw [div_le_div_right_of_neg hD]
  exact Real.rpow_le_rpow_of_nonpos (lt_of_lt_of_le hv.pos hx) hxy (by linarith [hv.index])

theorem cdf_full {s : Info} (hv : Valid s) : cdf s s.energyMax - cdf s s.energyMin = 1 := by
  have hD := rpow_diff_neg hv.pos hv.lt (p := s.spectralIndex + 1) (by linarith [hv.index])
  unfold cdf
  rw [← sub_div, div_self hD.ne]

/-! ## C26 -/

/-- **C26** Every bin that does not reach beyond both ends of the simulated range gets the number of showers times the
probability of the simulated power law in the bin. Edges 0 and infinity are allowed. -/
theorem C26_expected_number (s : Info) (hv : Valid s) {n : ℕ} (bins : Fin (n + 1) → FV ℝ) (i : Fin n)
    (hb : IsBin (bins i.castSucc) (bins i.succ)) (hc : ¬ StrictlyContainsRange s (bins i.castSucc) (bins i.succ)) :
    nShowersPerEnergy s bins i = .fin (expectedShowers s (bins i.castSucc) (bins i.succ)) := by
  unfold nShowersPerEnergy
  rw [energyIntegral_eq hv hb hc, expectedShowers_eq hv hb, FV.fin_mul_fin]

/-- **C26** (outside) Bins that contain no simulated energy get 0. -/
theorem C26_outside (s : Info) (hv : Valid s) {n : ℕ} (bins : Fin (n + 1) → FV ℝ) (i : Fin n)
    (hb : IsBin (bins i.castSucc) (bins i.succ))
    (ho : FV.le (bins i.succ) (.fin s.energyMin) = true ∨ FV.le (.fin s.energyMax) (bins i.castSucc) = true) :
    nShowersPerEnergy s bins i = .fin 0 := by
  have hc : ¬ StrictlyContainsRange s (bins i.castSucc) (bins i.succ) := by
    rintro ⟨h1, h2⟩
    rcases ho with h | h
    · have := FV.lt_of_lt_of_le' h2 h
      simp only [FV.lt_fin, decide_eq_true_eq] at this
      linarith [hv.lt]
    · have := FV.lt_of_le_of_lt' h h1
      simp only [FV.lt_fin, decide_eq_true_eq] at this
      linarith [hv.lt]
  rw [C26_expected_number s hv bins i hb hc, expectedShowers_eq hv hb]
  have : clip s (bins i.castSucc) = clip s (bins i.succ) := by
    apply le_antisymm (clip_mono s hv.lt (FV.le_of_lt' hb.lt))
    rcases ho with h | h
    · have := clip_mono s hv.lt h
      have e : clip s (.fin s.energyMin) = s.energyMin := by simp [clip, hv.lt.le]
      rw [e] at this
      exact this.trans (clip_mem s hv.lt _).1
    · have := clip_mono s hv.lt h
      have e : clip s (.fin s.energyMax) = s.energyMax := by simp [clip, hv.lt.le]
      rw [e] at this
      exact (clip_mem s hv.lt _).2.trans this
  rw [this, sub_self, mul_zero]

/-- the hypotheses are satisfiable, with overflow bins: simulated 1..10 TeV with index -2; bins 0, 2, inf -/
noncomputable def exInfo : Info := ⟨100, 1, 10, 1000, -2, 0, 1⟩

theorem exInfo_valid : Valid exInfo := ⟨by norm_num [exInfo], by norm_num [exInfo], by norm_num [exInfo], by norm_num [exInfo]⟩

example : Valid exInfo ∧ IsBin (.fin 0) (.fin 2) ∧ ¬ StrictlyContainsRange exInfo (.fin 0) (.fin 2) ∧
    IsBin (.fin 2) .pinf ∧ ¬ StrictlyContainsRange exInfo (.fin 2) .pinf := by
  refine ⟨exInfo_valid, ⟨by simp [FV.le], by simp⟩, ?_, ⟨by simp [FV.le], by simp [FV.lt]⟩, ?_⟩ <;>
    simp [StrictlyContainsRange, exInfo, FV.lt] <;> norm_num

/-! ## C27 -/

/-- **C27** (sum) If the bins cover the simulated range and none of them reaches beyond both of its ends, the numbers add up to
the number of showers. -/
theorem C27_sum (s : Info) (hv : Valid s) {n : ℕ} (bins : Fin (n + 1) → FV ℝ)
    (hb : ∀ i : Fin n, IsBin (bins i.castSucc) (bins i.succ))
    (hlo : FV.le (bins 0) (.fin s.energyMin) = true) (hhi : FV.le (.fin s.energyMax) (bins (Fin.last n)) = true)
    (hc : ∀ i : Fin n, ¬ StrictlyContainsRange s (bins i.castSucc) (bins i.succ)) :
    ∃ v : Fin n → ℝ, (∀ i, nShowersPerEnergy s bins i = .fin (v i)) ∧ ∑ i, v i = s.nShowers := by
  refine ⟨fun i => expectedShowers s (bins i.castSucc) (bins i.succ), fun i => C26_expected_number s hv bins i (hb i) (hc i), ?_⟩
  simp only [expectedShowers_eq hv (hb _)]
  rw [← Finset.mul_sum]
  have key : ∀ m (f : Fin (m + 1) → ℝ), ∑ i : Fin m, (f i.succ - f i.castSucc) = f (Fin.last m) - f 0 := by
    intro m
    induction m with
    | zero => intro f; simp
    | succ m ih =>
      intro f
      rw [Fin.sum_univ_castSucc]
      have := ih (fun i => f i.castSucc)
      simp only [Fin.succ_castSucc] at this ⊢
      rw [this]; simp
  rw [key n (fun i => cdf s (clip s (bins i)))]
  have e1 : clip s (bins (Fin.last n)) = s.energyMax := by
    apply le_antisymm (clip_mem s hv.lt _).2
    have := clip_mono s hv.lt hhi
    simpa [clip, hv.lt.le] using this
  have e0 : clip s (bins 0) = s.energyMin := by
    refine le_antisymm ?_ (clip_mem s hv.lt _).1
    have := clip_mono s hv.lt hlo
    simpa [clip, hv.lt.le] using this
  rw [e1, e0, cdf_full hv, mul_one]

/-- **C27** (merging) The number in a bin `[a, c)` is the sum of the numbers in `[a, b)` and `[b, c)`. -/
theorem C27_merge (s : Info) (hv : Valid s) (a b c : FV ℝ) (h1 : IsBin a b) (h2 : IsBin b c)
    (hc : ¬ StrictlyContainsRange s a c) :
    ∃ x y, nShowersPerEnergy s ![a, b, c] 0 = .fin x ∧ nShowersPerEnergy s ![a, b, c] 1 = .fin y ∧
      nShowersPerEnergy s ![a, c] 0 = .fin (x + y) := by
  have h3 : IsBin a c := ⟨h1.nonneg, FV.lt_of_lt_of_le' h1.lt (FV.le_of_lt' h2.lt)⟩
  have c1 : ¬ StrictlyContainsRange s a b := fun h => hc ⟨h.1, FV.lt_of_lt_of_le' h.2 (FV.le_of_lt' h2.lt)⟩
  have c2 : ¬ StrictlyContainsRange s b c := fun h => hc ⟨FV.lt_of_le_of_lt' (FV.le_of_lt' h1.lt) h.1, h.2⟩
  refine ⟨_, _, C26_expected_number s hv ![a, b, c] 0 h1 c1, C26_expected_number s hv ![a, b, c] 1 h2 c2, ?_⟩
  rw [C26_expected_number s hv ![a, c] 0 h3 hc]
  congr 1
  change expectedShowers s a c = expectedShowers s a b + expectedShowers s b c
  rw [expectedShowers_eq hv h1, expectedShowers_eq hv h2, expectedShowers_eq hv h3]; ring

/-- **C27** (sign) All numbers are at least 0 and at most the number of showers. -/
theorem C27_nonneg (s : Info) (hv : Valid s) {n : ℕ} (bins : Fin (n + 1) → FV ℝ) (i : Fin n)
    (hb : IsBin (bins i.castSucc) (bins i.succ)) (hc : ¬ StrictlyContainsRange s (bins i.castSucc) (bins i.succ)) :
    ∃ x, nShowersPerEnergy s bins i = .fin x ∧ 0 ≤ x ∧ x ≤ s.nShowers := by
  refine ⟨_, C26_expected_number s hv bins i hb hc, ?_, ?_⟩ <;> rw [expectedShowers_eq hv hb]
  · apply mul_nonneg hv.showers.le
    have := cdf_mono hv (clip_mem s hv.lt (bins i.castSucc)).1 (clip_mono s hv.lt (FV.le_of_lt' hb.lt))
    linarith
  · have h1 := cdf_mono hv le_rfl (clip_mem s hv.lt (bins i.castSucc)).1
    have h2 := cdf_mono hv (clip_mem s hv.lt (bins i.succ)).1 (clip_mem s hv.lt (bins i.succ)).2
    have h3 := cdf_full hv
    have := hv.showers
    nlinarith

/-! ## C28, C81 -/

/-- **C28** The constructor raises ValueError for an index above -1, and only then; otherwise it stores the arguments. -/
theorem C28_constructor (n e1 e2 r g v1 v2 : ℝ) :
    (mkInfo n e1 e2 r g v1 v2 = .error .valueError ↔ -1 < g) ∧
    (g ≤ -1 → mkInfo n e1 e2 r g v1 v2 = .ok ⟨n, e1, e2, r, g, v1, v2⟩) := by
  unfold mkInfo
  constructor
  · split <;> rename_i h
    · simpa using h
    · simp; linarith
  · intro h; rw [if_neg (by linarith)]

/-- **C28** (finite numbers) For every index below -1 the numbers of showers are finite, for every bin whatever (also one that
contains the whole range). -/
theorem C28_finite (s : Info) (hv : Valid s) {n : ℕ} (bins : Fin (n + 1) → FV ℝ) (i : Fin n)
    (hb : IsBin (bins i.castSucc) (bins i.succ)) : (nShowersPerEnergy s bins i).isFinite = true := by
  by_cases hc : StrictlyContainsRange s (bins i.castSucc) (bins i.succ)
  · unfold nShowersPerEnergy energyIntegral FV.gt
    obtain ⟨h1, h2⟩ := hc
    have h3 : FV.lt (.fin s.energyMin) (bins i.succ) = true := by
      refine FV.lt_of_le_of_lt' (b := .fin s.energyMax) ?_ h2
      simp [hv.lt.le]
    simp only [h1, h3, Bool.and_self, if_true]
    have hp : s.spectralIndex + 1 < 0 := by linarith [hv.index]
    have hD := rpow_diff_neg hv.pos hv.lt hp
    unfold powerlawPdfIntegral
    simp only []
    rw [FV.pow_fin hv.pos, FV.pow_fin (hv.pos.trans hv.lt)]
    have hq : ∃ y, FV.pow (bins i.succ) (s.spectralIndex + 1) = .fin y := by
      cases hh : bins i.succ with
      | fin b => rw [hh] at h3; simp at h3; exact ⟨_, FV.pow_fin (hv.pos.trans h3)⟩
      | pinf => exact ⟨0, by simp [FV.pow, hp, hp.ne]⟩
      | nan => rw [hh] at h3; simp at h3
      | ninf => rw [hh] at h3; simp [FV.lt] at h3
    obtain ⟨y, hy⟩ := hq
    simp only [hy, FV.fin_sub_fin, FV.fin_div_fin _ _ hD.ne, FV.fin_mul_fin, FV.isFinite]
  · rw [C26_expected_number s hv bins i hb hc]; rfl

theorem index_minus_one (s : Info) {n : ℕ} (bins : Fin (n + 1) → FV ℝ) (i : Fin n) (hi : s.spectralIndex = -1)
    (h1 : FV.lt (.fin s.energyMin) (bins i.succ) = true) (h2 : FV.lt (bins i.castSucc) (.fin s.energyMax) = true) :
    nShowersPerEnergy s bins i = .nan := by
  have hnan : ∀ a b c d : FV ℝ, powerlawPdfIntegral s.spectralIndex a b c d = .nan := by
    intro a b c d
    simp [powerlawPdfIntegral, hi, FV.pow, FV.fin_div_zero]
    rw [FV.infSign_pos one_pos]
    show FV.infSign (0:ℝ) = _
    simp
  unfold nShowersPerEnergy energyIntegral
  simp only [hnan, FV.ge, FV.gt, FV.not_le_of_lt h1, FV.not_le_of_lt h2]
  simp

/-- **C81** For every spectral index the constructor accepts and every bin: the number of showers is finite exactly if the index is below -1 or the
bin contains no simulated energy; in the remaining case (index -1 and a bin that meets the simulated range) it is NaN. -/
theorem C81_finite_iff (s : Info) (hpos : 0 < s.energyMin) (hlt : s.energyMin < s.energyMax) (hn : 0 < s.nShowers)
    (hacc : mkInfo s.nShowers s.energyMin s.energyMax s.maxImpact s.spectralIndex s.viewconeMin s.viewconeMax = .ok s) {n : ℕ}
    (bins : Fin (n + 1) → FV ℝ) (i : Fin n) (hb : IsBin (bins i.castSucc) (bins i.succ)) :
    ((nShowersPerEnergy s bins i).isFinite = true ↔ s.spectralIndex < -1 ∨
      FV.le (bins i.succ) (.fin s.energyMin) = true ∨ FV.le (.fin s.energyMax) (bins i.castSucc) = true) ∧
    (nShowersPerEnergy s bins i = .nan ↔ s.spectralIndex = -1 ∧
      FV.lt (.fin s.energyMin) (bins i.succ) = true ∧ FV.lt (bins i.castSucc) (.fin s.energyMax) = true) := by
  have hle : s.spectralIndex ≤ -1 := by
    by_contra hc
    have := (C28_constructor s.nShowers s.energyMin s.energyMax s.maxImpact s.spectralIndex s.viewconeMin s.viewconeMax).1.mpr (not_le.mp hc)
    rw [this] at hacc; cases hacc
  have hno : ∀ v : FV ℝ, v.isFinite = true → v ≠ .nan := by rintro v hv rfl; cases hv
  rcases hle.lt_or_eq with hi | hi
  · have hfin := C28_finite s ⟨hpos, hlt, hi, hn⟩ bins i hb
    exact ⟨⟨fun _ => Or.inl hi, fun _ => hfin⟩, fun h => absurd h (hno _ hfin), fun h => absurd h.1 hi.ne⟩
  · by_cases h1 : FV.lt (.fin s.energyMin) (bins i.succ) = true
    · by_cases h2 : FV.lt (bins i.castSucc) (.fin s.energyMax) = true
      · have hv := index_minus_one s bins i hi h1 h2
        refine ⟨⟨fun h => ?_, fun h => ?_⟩, fun _ => ⟨hi, h1, h2⟩, fun _ => hv⟩
        · rw [hv] at h; cases h
        · rcases h with h | h | h
          · exact absurd h (by rw [hi]; exact lt_irrefl _)
          · rw [FV.not_le_of_lt h1] at h; cases h
          · rw [FV.not_le_of_lt h2] at h; cases h
      · have h2' : FV.le (.fin s.energyMax) (bins i.castSucc) = true := by
          have := hb.nonneg
          revert h2 this
          cases bins i.castSucc <;> simp +contextual [FV.le, FV.lt]
        have hv : nShowersPerEnergy s bins i = .fin 0 := by
          have h3 : FV.lt (.fin s.energyMin) (bins i.castSucc) = true :=
            FV.lt_of_lt_of_le' (b := .fin s.energyMax) (by simp [hlt]) h2'
          have h4 : FV.lt (bins i.castSucc) (.fin s.energyMin) = false := by
            have := FV.not_le_of_lt h3
            by_contra hc
            rw [FV.le_of_lt' (by simpa using hc)] at this; cases this
          unfold nShowersPerEnergy energyIntegral
          simp only [FV.ge, FV.gt, h2', h2, h4]
          simp
        refine ⟨⟨fun _ => Or.inr (Or.inr h2'), fun _ => by rw [hv]; rfl⟩, fun h => ?_, fun h => absurd h.2.2 h2⟩
        rw [hv] at h; cases h
    · have h1' : FV.le (bins i.succ) (.fin s.energyMin) = true := by
        have h0 := FV.lt_of_le_of_lt' hb.nonneg hb.lt
        revert h1 h0
        cases bins i.succ <;> simp +contextual [FV.le, FV.lt]
      have hv : nShowersPerEnergy s bins i = .fin 0 := by
        have h3 : FV.lt (.fin s.energyMax) (bins i.succ) = false := by
          have : FV.lt (bins i.succ) (.fin s.energyMax) = true := FV.lt_of_le_of_lt' h1' (by simp [hlt])
          have := FV.not_le_of_lt this
          by_contra hc
          rw [FV.le_of_lt' (by simpa using hc)] at this; cases this
        unfold nShowersPerEnergy energyIntegral
        simp only [FV.ge, FV.gt, h1', h1, h3]
        simp
      refine ⟨⟨fun _ => Or.inr (Or.inl h1'), fun _ => by rw [hv]; rfl⟩, fun h => ?_, fun h => absurd h.2.1 h1⟩
      rw [hv] at h; cases h

/-- **C81** (deviation) "Every accepted spectral index yields finite numbers of showers" fails at -1: the constructor accepts it and every
bin with both edges in the simulated range gets NaN. -/
theorem C81_index_minus_one_not_finite :
    ¬ ∀ (s : Info) (a b : FV ℝ), mkInfo s.nShowers s.energyMin s.energyMax s.maxImpact s.spectralIndex s.viewconeMin s.viewconeMax = .ok s →
      0 < s.energyMin → s.energyMin < s.energyMax → IsBin a b → (nShowersPerEnergy s ![a, b] 0).isFinite = true := by
  intro h
  have := h ⟨100, 1, 10, 1000, -1, 0, 1⟩ (.fin 2) (.fin 3) (by simp [mkInfo]) (by norm_num) (by norm_num)
    ⟨by simp, by simp; norm_num⟩
  rw [index_minus_one _ ![.fin 2, .fin 3] 0 rfl (by simp) (by simp; norm_num)] at this
  simp [FV.isFinite] at this

/-! ## C80 -/

/-- **C80** (deviation) "A bin that contains the whole simulated range gets all showers" fails for every bin that reaches beyond both ends: the
number is larger than the number of showers. -/
theorem C80_whole_range_too_many (s : Info) (hv : Valid s) (a b : FV ℝ) (hb : IsBin a b) (hc : StrictlyContainsRange s a b) :
    ∃ x, nShowersPerEnergy s ![a, b] 0 = .fin x ∧ s.nShowers < x ∧ expectedShowers s a b = s.nShowers := by
  obtain ⟨h1, h2⟩ := hc
  have h3 : FV.lt (.fin s.energyMin) b = true := by
    refine FV.lt_of_le_of_lt' (b := .fin s.energyMax) ?_ h2
    simp [hv.lt.le]
  have hp : s.spectralIndex + 1 < 0 := by linarith [hv.index]
  have hD := rpow_diff_neg hv.pos hv.lt hp
  have hq : ∃ y, FV.pow b (s.spectralIndex + 1) = .fin y ∧ y < s.energyMax ^ (s.spectralIndex + 1) := by
    cases hh : b with
    | fin b' =>
      rw [hh] at h2; simp at h2
      exact ⟨_, FV.pow_fin (hv.pos.trans (hv.lt.trans h2)), Real.rpow_lt_rpow_of_neg (hv.pos.trans hv.lt) h2 hp⟩
    | pinf => exact ⟨0, by simp [FV.pow, hp, hp.ne], Real.rpow_pos_of_pos (hv.pos.trans hv.lt) _⟩
    | nan => rw [hh] at h3; simp at h3
    | ninf => rw [hh] at h3; simp [FV.lt] at h3
  obtain ⟨y, hy, hylt⟩ := hq
  refine ⟨s.nShowers * ((y - s.energyMin ^ (s.spectralIndex + 1)) *
    (1 / (s.energyMax ^ (s.spectralIndex + 1) - s.energyMin ^ (s.spectralIndex + 1)))), ?_, ?_, ?_⟩
  · change FV.fin s.nShowers * energyIntegral s a b = _
    unfold energyIntegral FV.gt
    simp only [h1, h3, Bool.and_self, if_true]
    unfold powerlawPdfIntegral
    simp only []
    rw [FV.pow_fin hv.pos, FV.pow_fin (hv.pos.trans hv.lt), hy]
    simp only [FV.fin_sub_fin, FV.fin_div_fin _ _ hD.ne, FV.fin_mul_fin]
  · have : 1 < (y - s.energyMin ^ (s.spectralIndex + 1)) *
        (1 / (s.energyMax ^ (s.spectralIndex + 1) - s.energyMin ^ (s.spectralIndex + 1))) := by
      rw [mul_one_div, lt_div_iff_of_neg hD]; linarith
    nlinarith [hv.showers]
  · rw [expectedShowers_eq hv hb]
    have e1 : clip s b = s.energyMax := by
      apply le_antisymm (clip_mem s hv.lt _).2
      have := clip_mono s hv.lt (FV.le_of_lt' h2)
      simpa [clip, hv.lt.le] using this
    have e0 : clip s a = s.energyMin := by
      refine le_antisymm ?_ (clip_mem s hv.lt _).1
      have := clip_mono s hv.lt (FV.le_of_lt' h1)
      simpa [clip, hv.lt.le] using this
    rw [e1, e0, cdf_full hv, mul_one]

/-- **C80** A bin that contains the whole range and has at least one edge on its end gets all showers. -/
theorem C80_whole_range_edge (s : Info) (hv : Valid s) (a b : FV ℝ) (hb : IsBin a b)
    (h1 : FV.le a (.fin s.energyMin) = true) (h2 : FV.le (.fin s.energyMax) b = true)
    (he : a = .fin s.energyMin ∨ b = .fin s.energyMax) : nShowersPerEnergy s ![a, b] 0 = .fin s.nShowers := by
  have hc : ¬ StrictlyContainsRange s a b := by
    rintro ⟨q1, q2⟩
    rcases he with rfl | rfl
    · simp [FV.lt_irrefl'] at q1
    · simp [FV.lt_irrefl'] at q2
  obtain ⟨v, hv1, hv2⟩ := C27_sum s hv ![a, b] (fun i => by fin_cases i; exact hb) h1 h2 (fun i => by fin_cases i; exact hc)
  rw [hv1 0]
  simpa using hv2

/-- The power `e ^ p` of an upper energy edge, `p` being negative: 0 for an infinite edge. -/
noncomputable def edgePow (p : ℝ) : FV ℝ → ℝ
  | .fin e => e ^ p
  | _ => 0

/-- **C80** The number of a bin that contains the whole simulated range: all showers exactly if one of its edges is an end of the range; otherwise
the number of showers times the integral of the power law (normalized on the simulated range) from the lower end of the range to the *upper edge
of the bin*, which is more than the number of showers. -/
theorem C80_whole_range (s : Info) (hv : Valid s) (a b : FV ℝ) (hb : IsBin a b)
    (h1 : FV.le a (.fin s.energyMin) = true) (h2 : FV.le (.fin s.energyMax) b = true) :
    (nShowersPerEnergy s ![a, b] 0 = .fin s.nShowers ↔ a = .fin s.energyMin ∨ b = .fin s.energyMax) ∧
    (¬ (a = .fin s.energyMin ∨ b = .fin s.energyMax) →
      nShowersPerEnergy s ![a, b] 0 = .fin (s.nShowers * ((edgePow (s.spectralIndex + 1) b - s.energyMin ^ (s.spectralIndex + 1)) /
        (s.energyMax ^ (s.spectralIndex + 1) - s.energyMin ^ (s.spectralIndex + 1))))) := by
  by_cases he : a = .fin s.energyMin ∨ b = .fin s.energyMax
  · exact ⟨⟨fun _ => he, fun _ => C80_whole_range_edge s hv a b hb h1 h2 he⟩, fun h => absurd he h⟩
  · have hc : StrictlyContainsRange s a b := by
      push Not at he
      constructor
      · revert h1; have := he.1; revert this
        cases a <;> simp [FV.le, FV.lt]
        intro h1 h2; exact lt_of_le_of_ne h2 h1
      · revert h2; have := he.2; revert this
        cases b <;> simp [FV.le, FV.lt]
        intro h1 h2; exact lt_of_le_of_ne h2 (Ne.symm h1)
    refine ⟨⟨fun h => ?_, fun h => absurd h he⟩, fun _ => ?_⟩
    · obtain ⟨x, hx, hlt, -⟩ := C80_whole_range_too_many s hv a b hb hc
      rw [h] at hx
      cases hx; exact absurd hlt (lt_irrefl _)
    · obtain ⟨q1, q2⟩ := hc
      have q3 : FV.lt (.fin s.energyMin) b = true := by
        refine FV.lt_of_le_of_lt' (b := .fin s.energyMax) ?_ q2
        simp [hv.lt.le]
      have hp : s.spectralIndex + 1 < 0 := by linarith [hv.index]
      have hD := rpow_diff_neg hv.pos hv.lt hp
      have hy : FV.pow b (s.spectralIndex + 1) = .fin (edgePow (s.spectralIndex + 1) b) := by
        cases hh : b with
        | fin b' =>
          rw [hh] at q2; simp at q2
          exact FV.pow_fin (hv.pos.trans (hv.lt.trans q2))
        | pinf => simp [FV.pow, hp, hp.ne, edgePow]
        | nan => rw [hh] at q3; simp at q3
        | ninf => rw [hh] at q3; simp [FV.lt] at q3
      change FV.fin s.nShowers * energyIntegral s a b = _
      unfold energyIntegral FV.gt
      simp only [q1, q3, Bool.and_self, if_true]
      unfold powerlawPdfIntegral
      simp only []
      rw [FV.pow_fin hv.pos, FV.pow_fin (hv.pos.trans hv.lt), hy]
      simp only [FV.fin_sub_fin, FV.fin_div_fin _ _ hD.ne, FV.fin_mul_fin, mul_one_div]

example : IsBin (.fin 0) (.fin 20) ∧ StrictlyContainsRange exInfo (.fin 0) (.fin 20) := by
  refine ⟨⟨by simp, by simp⟩, ?_⟩
  simp [StrictlyContainsRange, exInfo]; norm_num

end Pyirf.Simulations
