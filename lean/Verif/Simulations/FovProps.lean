import Verif.Simulations.EnergyProps

/-!
# Simulated showers per field-of-view bin (C29, C30, C31, C82)
-/
set_option linter.unusedSectionVars false
set_option linter.unusedSimpArgs false

namespace Pyirf.Simulations
open Pyirf Pyirf.Np MeasureTheory

/-! ## Specification -/

/-- Solid angle of the directions whose angle to the axis is in `S`. -/
noncomputable def solidAngleOf (S : Set ℝ) : ℝ := 2 * Real.pi * ∫ t in S, Real.sin t

/-- The part of the offset bin `[lo, hi)` inside the viewcone. -/
def viewconePart (s : Info) (lo hi : ℝ) : Set ℝ := Set.Icc s.viewconeMin s.viewconeMax ∩ Set.Ico lo hi

/-- Fraction of the viewcone's solid angle in the offset bin. -/
noncomputable def viewconeFraction (s : Info) (lo hi : ℝ) : ℝ :=
  solidAngleOf (viewconePart s lo hi) / solidAngleOf (Set.Icc s.viewconeMin s.viewconeMax)

/-- A viewcone of non-zero opening. -/
structure Diffuse (s : Info) : Prop where
  nonneg : 0 ≤ s.viewconeMin
  lt : s.viewconeMin < s.viewconeMax
  le_pi : s.viewconeMax ≤ Real.pi

/-! ## Lemmas -/

/-- an offset moved into the viewcone -/
noncomputable def clipV (s : Info) (x : ℝ) : ℝ := max s.viewconeMin (min x s.viewconeMax)

theorem clipV_mem (s : Info) (h : s.viewconeMin < s.viewconeMax) (x : ℝ) :
    s.viewconeMin ≤ clipV s x ∧ clipV s x ≤ s.viewconeMax := by
  simp [clipV, h.le]

theorem clipV_mono (s : Info) {x y : ℝ} (h : x ≤ y) : clipV s x ≤ clipV s y :=
  max_le_max le_rfl (min_le_min h le_rfl)

theorem cosDiff_pos {s : Info} (hd : Diffuse s) : 0 < Real.cos s.viewconeMin - Real.cos s.viewconeMax := by
  have := Real.cos_lt_cos_of_nonneg_of_le_pi hd.nonneg hd.le_pi hd.lt
  linarith

/-- fraction of the viewcone below an offset, up to a constant -/
noncomputable def cdfV (s : Info) (x : ℝ) : ℝ := -Real.cos (clipV s x) / (Real.cos s.viewconeMin - Real.cos s.viewconeMax)

theorem cdfV_mono {s : Info} (hd : Diffuse s) {x y : ℝ} (h : x ≤ y) : cdfV s x ≤ cdfV s y := by
  unfold cdfV
  rw [div_le_div_iff_of_pos_right (cosDiff_pos hd)]
  have := Real.cos_le_cos_of_nonneg_of_le_pi (hd.nonneg.trans (clipV_mem s hd.lt x).1)
    ((clipV_mem s hd.lt y).2.trans hd.le_pi) (clipV_mono s h)
  linarith

theorem viewconePart_sandwich {s : Info} (hd : Diffuse s) (lo hi : ℝ) :
    Set.Ioo (clipV s lo) (clipV s hi) ⊆ viewconePart s lo hi ∧ viewconePart s lo hi ⊆ Set.Icc (clipV s lo) (clipV s hi) := by
  constructor
  · rintro t ⟨h1, h2⟩
    have q1 := (clipV_mem s hd.lt lo).1
    have q2 := (clipV_mem s hd.lt hi).2
    refine ⟨⟨by linarith, by linarith⟩, ?_, ?_⟩
    · simp only [clipV, max_lt_iff, min_lt_iff] at h1
      rcases h1.2 with h | h
      · exact h.le
      · linarith
    · simp only [clipV, lt_max_iff, lt_min_iff] at h2
      rcases h2 with h | h
      · linarith
      · exact h.1
  · rintro t ⟨⟨h1, h2⟩, h3, h4⟩
    simp [clipV, h1, h2, h3, h4.le]

theorem viewconeFraction_eq {s : Info} (hd : Diffuse s) {lo hi : ℝ} (h : lo ≤ hi) :
    viewconeFraction s lo hi = cdfV s hi - cdfV s lo := by
  obtain ⟨h1, h2⟩ := viewconePart_sandwich hd lo hi
  unfold viewconeFraction solidAngleOf
  rw [integral_sandwich (clipV_mono s h) h1 h2, integral_sandwich hd.lt.le Set.Ioo_subset_Icc_self le_rfl, integral_sin, integral_sin]
  have hp := Real.pi_pos
  have := (cosDiff_pos hd).ne'
  unfold cdfV
  field_simp
  ring

theorem viewconePdfIntegral_eq {s : Info} (hd : Diffuse s) {lo hi : ℝ} (h : lo ≤ hi) :
    viewconePdfIntegral s.viewconeMin s.viewconeMax lo hi = .ok (.fin (cdfV s hi - cdfV s lo)) := by
  have hne := (cosDiff_pos hd).ne'
  have hlt := hd.lt
  unfold viewconePdfIntegral
  rw [if_neg (by linarith)]
  simp only []
  rw [FV.fin_div_fin _ _ hne, FV.fin_mul_fin]
  congr 2
  unfold cdfV clipV
  by_cases hh : hi ≥ s.viewconeMin ∧ lo ≤ s.viewconeMax
  · rw [if_pos hh]
    obtain ⟨q1, q2⟩ := hh
    have e1 : max s.viewconeMin (min lo s.viewconeMax) = if lo > s.viewconeMin then lo else s.viewconeMin := by
      rw [min_eq_left q2]; split_ifs with g
      · exact max_eq_right g.le
      · exact max_eq_left (not_lt.mp g)
    have e2 : max s.viewconeMin (min hi s.viewconeMax) = if hi < s.viewconeMax then hi else s.viewconeMax := by
      split_ifs with g
      · rw [min_eq_left g.le]; exact max_eq_right q1
      · rw [min_eq_right (not_lt.mp g)]; exact max_eq_right hlt.le
    rw [e1, e2]; ring
  rw [if_neg hh]
  have : max s.viewconeMin (min lo s.viewconeMax) = max s.viewconeMin (min hi s.viewconeMax) := by
    rw [not_and_or, not_le, not_le] at hh
    rcases hh with g | g
    · rw [min_eq_left (by linarith), min_eq_left (by linarith), max_eq_left (by linarith), max_eq_left g.le]
    · rw [min_eq_right g.le, min_eq_right (by linarith)]
  rw [this]; ring

theorem nShowersPerFov_eq {s : Info} (hd : Diffuse s) {n : ℕ} (bins : Fin (n + 1) → ℝ)
    (hb : ∀ i : Fin n, bins i.castSucc ≤ bins i.succ) :
    nShowersPerFov s bins = .ok (fun i => .fin (s.nShowers * (cdfV s (bins i.succ) - cdfV s (bins i.castSucc)))) := by
  have hlt := hd.lt
  unfold nShowersPerFov viewconePdfIntegrals
  rw [if_neg (by linarith)]
  simp only [viewconePdfIntegral_eq hd (hb _), FV.fin_mul_fin]

theorem sum_telescope : ∀ m (f : Fin (m + 1) → ℝ), ∑ i : Fin m, (f i.succ - f i.castSucc) = f (Fin.last m) - f 0 := by
  intro m
  induction m with
  | zero => intro f; simp
  | succ m ih =>
    intro f
    rw [Fin.sum_univ_castSucc]
    have := ih (fun i => f i.castSucc)
    simp only [Fin.succ_castSucc] at this ⊢
    rw [this]; simp

theorem cdfV_full {s : Info} (hd : Diffuse s) {a b : ℝ} (ha : a ≤ s.viewconeMin) (hb : s.viewconeMax ≤ b) :
    cdfV s b - cdfV s a = 1 := by
  have hlt := hd.lt
  unfold cdfV
  have e1 : clipV s b = s.viewconeMax := by simp [clipV, hb, hlt.le]
  have e0 : clipV s a = s.viewconeMin := by simp [clipV, ha, (ha.trans hlt.le)]
  have := (cosDiff_pos hd).ne'
  rw [e1, e0]; field_simp; ring

/-! ## C29 -/

/-- **C29** Every offset bin gets the number of showers times the fraction of the viewcone's solid angle in the bin. -/
theorem C29_fraction (s : Info) (hd : Diffuse s) {n : ℕ} (bins : Fin (n + 1) → ℝ)
    (hb : ∀ i : Fin n, bins i.castSucc ≤ bins i.succ) :
    nShowersPerFov s bins = .ok (fun i => .fin (s.nShowers * viewconeFraction s (bins i.castSucc) (bins i.succ))) := by
  rw [nShowersPerFov_eq hd bins hb]
  simp only [viewconeFraction_eq hd (hb _)]

/-- **C29** (sign, sum, merge) The fractions are in [0, 1] and 0 for bins outside the viewcone, add over neighbouring bins,
and add up to 1 if the bins cover the viewcone. -/
theorem C29_additive (s : Info) (hd : Diffuse s) :
    (∀ lo hi, lo ≤ hi → 0 ≤ viewconeFraction s lo hi ∧ viewconeFraction s lo hi ≤ 1) ∧
    (∀ lo hi, lo ≤ hi → hi ≤ s.viewconeMin ∨ s.viewconeMax ≤ lo → viewconeFraction s lo hi = 0) ∧
    (∀ a b c, a ≤ b → b ≤ c → viewconeFraction s a c = viewconeFraction s a b + viewconeFraction s b c) ∧
    (∀ (n : ℕ) (bins : Fin (n + 1) → ℝ), (∀ i : Fin n, bins i.castSucc ≤ bins i.succ) → bins 0 ≤ s.viewconeMin →
      s.viewconeMax ≤ bins (Fin.last n) → ∑ i : Fin n, viewconeFraction s (bins i.castSucc) (bins i.succ) = 1) := by
  refine ⟨?_, ?_, ?_, ?_⟩
  · intro lo hi h
    rw [viewconeFraction_eq hd h]
    refine ⟨by linarith [cdfV_mono hd h], ?_⟩
    have h1 := cdfV_mono hd (min_le_left lo s.viewconeMin)
    have h2 := cdfV_mono hd (le_max_left hi s.viewconeMax)
    have h3 := cdfV_full hd (min_le_right lo s.viewconeMin) (le_max_right hi s.viewconeMax)
    linarith
  · intro lo hi h ho
    rw [viewconeFraction_eq hd h]
    have : clipV s hi = clipV s lo := by
      have hlt := hd.lt
      unfold clipV
      rcases ho with g | g
      · rw [min_eq_left (by linarith), min_eq_left (by linarith), max_eq_left (by linarith), max_eq_left (by linarith)]
      · rw [min_eq_right (by linarith), min_eq_right (by linarith)]
    unfold cdfV; rw [this, sub_self]
  · intro a b c h1 h2
    rw [viewconeFraction_eq hd h1, viewconeFraction_eq hd h2, viewconeFraction_eq hd (h1.trans h2)]; ring
  · intro n bins hb h0 h1
    simp only [viewconeFraction_eq hd (hb _)]
    rw [sum_telescope n (fun i => cdfV s (bins i)), cdfV_full hd h0 h1]

/-- **C29** (point-like simulation) A viewcone of zero opening raises ValueError, and only such a viewcone does. -/
theorem C29_error (s : Info) {n : ℕ} (bins : Fin (n + 1) → ℝ) :
    nShowersPerFov s bins = .error .valueError ↔ s.viewconeMin = s.viewconeMax := by
  unfold nShowersPerFov viewconePdfIntegrals
  by_cases h : s.viewconeMax - s.viewconeMin = 0
  · rw [if_pos h]
    simp; linarith
  · rw [if_neg h]
    simp
    intro h'; exact h (by rw [h', sub_self])

/-- the example simulation has a viewcone of one radian -/
theorem exInfo_diffuse : Diffuse exInfo := ⟨by norm_num [exInfo], by norm_num [exInfo], by simp [exInfo]; linarith [Real.two_le_pi]⟩

example : (∀ i : Fin 2, (![0, 1 / 2, 1] : Fin 3 → ℝ) i.castSucc ≤ (![0, 1 / 2, 1] : Fin 3 → ℝ) i.succ) ∧
    (![0, 1 / 2, 1] : Fin 3 → ℝ) 0 ≤ exInfo.viewconeMin ∧ exInfo.viewconeMax ≤ (![0, 1 / 2, 1] : Fin 3 → ℝ) (Fin.last 2) := by
  refine ⟨?_, by norm_num [exInfo], by simp [exInfo]⟩
  intro i; fin_cases i
  · show (0:ℝ) ≤ 1 / 2
    norm_num
  · show (1 / 2 : ℝ) ≤ 1
    norm_num

/-! ## C30 -/

/-- **C30** (factorization) The number in energy bin i and offset bin j times the number of showers is the product of the
one-dimensional numbers. -/
theorem C30_factorize (s : Info) (hn : 0 < s.nShowers) {n m : ℕ} (energyBins : Fin (n + 1) → FV ℝ) (fovBins : Fin (m + 1) → ℝ)
    (a : Fin n → ℝ) (b : Fin m → ℝ) (ha : ∀ i, nShowersPerEnergy s energyBins i = .fin (a i))
    (hb : nShowersPerFov s fovBins = .ok (fun j => .fin (b j))) :
    ∃ v : Fin n → Fin m → ℝ, nShowersPerEnergyAndFov s energyBins fovBins = .ok (fun i j => .fin (v i j)) ∧
      ∀ i j, v i j * s.nShowers = a i * b j := by
  refine ⟨fun i j => a i * b j / s.nShowers, ?_, ?_⟩
  · unfold nShowersPerEnergyAndFov
    simp only [hb, ha, FV.fin_mul_fin, FV.fin_div_fin _ _ hn.ne']
  · intro i j; field_simp

/-- **C30** (sums) If the offset bins cover the viewcone, summing over them gives the numbers per energy bin; if the energy bins
also cover the simulated range (none beyond both ends), everything adds up to the number of showers. -/
theorem C30_sums (s : Info) (hv : Valid s) (hd : Diffuse s) {n m : ℕ} (energyBins : Fin (n + 1) → FV ℝ)
    (fovBins : Fin (m + 1) → ℝ) (hE : ∀ i : Fin n, IsBin (energyBins i.castSucc) (energyBins i.succ))
    (hc : ∀ i : Fin n, ¬ StrictlyContainsRange s (energyBins i.castSucc) (energyBins i.succ))
    (hF : ∀ i : Fin m, fovBins i.castSucc ≤ fovBins i.succ) (h0 : fovBins 0 ≤ s.viewconeMin)
    (h1 : s.viewconeMax ≤ fovBins (Fin.last m)) :
    ∃ v : Fin n → Fin m → ℝ, nShowersPerEnergyAndFov s energyBins fovBins = .ok (fun i j => .fin (v i j)) ∧
      (∀ i, nShowersPerEnergy s energyBins i = .fin (∑ j, v i j)) ∧
      (FV.le (energyBins 0) (.fin s.energyMin) = true → FV.le (.fin s.energyMax) (energyBins (Fin.last n)) = true →
        ∑ i, ∑ j, v i j = s.nShowers) := by
  have hb := C29_fraction s hd fovBins hF
  obtain ⟨v, hv1, hv2⟩ := C30_factorize s hv.showers energyBins fovBins _ _
    (fun i => C26_expected_number s hv energyBins i (hE i) (hc i)) hb
  have hsum : ∀ i, ∑ j, v i j = expectedShowers s (energyBins i.castSucc) (energyBins i.succ) := by
    intro i
    have hs := (C29_additive s hd).2.2.2 m fovBins hF h0 h1
    have hn := hv.showers.ne'
    have : (∑ j, v i j) * s.nShowers = expectedShowers s (energyBins i.castSucc) (energyBins i.succ) * s.nShowers := by
      rw [Finset.sum_mul]
      simp only [hv2]
      rw [← Finset.mul_sum, ← Finset.mul_sum, hs, mul_one]
    exact mul_right_cancel₀ hn this
  refine ⟨v, hv1, ?_, ?_⟩
  · intro i
    rw [hsum i]; exact C26_expected_number s hv energyBins i (hE i) (hc i)
  · intro q0 q1
    obtain ⟨w, hw1, hw2⟩ := C27_sum s hv energyBins hE q0 q1 hc
    rw [← hw2]
    apply Finset.sum_congr rfl
    intro i _
    have := hw1 i
    rw [C26_expected_number s hv energyBins i (hE i) (hc i)] at this
    rw [hsum i]; exact FV.fin.inj this

/-! ## C31, C82 -/

/-- **C31** The 3d polar numbers are the two-dimensional ones divided equally over the position-angle bins, and their sum over the position
angle is the two-dimensional number. -/
theorem C31_polar_sum (s : Info) (hn : 0 < s.nShowers) (hd : Diffuse s) {n m k : ℕ} (hk : 0 < k) (energyBins : Fin (n + 1) → FV ℝ)
    (offsetBins : Fin (m + 1) → ℝ) (paBins : Fin (k + 1) → ℝ) (w : Fin n → Fin m → ℝ)
    (hw : nShowersPerEnergyAndFov s energyBins offsetBins = .ok (fun i j => .fin (w i j))) :
    ∃ v : Fin n → Fin m → Fin k → ℝ, nShowers3dPolar s energyBins offsetBins paBins = .ok (fun i j l => .fin (v i j l)) ∧
      (∀ i j l, v i j l = w i j / k) ∧ (∀ i j, ∑ l, v i j l = w i j) := by
  have hk' : (0:ℝ) < k := by exact_mod_cast hk
  have hvc := C29_fraction s hd ![s.viewconeMin, s.viewconeMax] (by intro i; fin_cases i; exact hd.lt.le)
  have hone : viewconeFraction s s.viewconeMin s.viewconeMax = 1 := by
    rw [viewconeFraction_eq hd hd.lt.le]; exact cdfV_full hd le_rfl le_rfl
  refine ⟨fun i j l => w i j / k, ?_, fun _ _ _ => rfl, ?_⟩
  · unfold nShowers3dPolar
    simp only [hw, hvc, Fintype.card_fin, Nat.add_sub_cancel]
    congr 1
    funext i j l
    have e : (![s.viewconeMin, s.viewconeMax] : Fin 2 → ℝ) (Fin.castSucc 0) = s.viewconeMin := rfl
    have e' : (![s.viewconeMin, s.viewconeMax] : Fin 2 → ℝ) (Fin.succ 0) = s.viewconeMax := rfl
    rw [e, e', hone, FV.fin_div_fin _ _ hk'.ne', FV.fin_mul_fin, FV.fin_div_fin _ _ hn.ne']
    congr 1
    field_simp
  · intro i j
    simp only [Finset.sum_const, Finset.card_univ, Fintype.card_fin, nsmul_eq_mul]; field_simp

/-- **C82** (deviation) "The numbers are shared over position-angle bins in proportion to their width" fails: bins from 0 to 90
and from 90 to 360 degrees get the same number. -/
theorem C82_not_by_width :
    ¬ ∀ (s : Info) (_ : Valid s) (_ : Diffuse s) (energyBins : Fin 2 → FV ℝ) (offsetBins : Fin 2 → ℝ) (paBins : Fin 3 → ℝ)
      (v : Fin 1 → Fin 1 → Fin 2 → ℝ), StrictMono paBins → paBins 0 = 0 → paBins 2 = 2 * Real.pi →
      nShowers3dPolar s energyBins offsetBins paBins = .ok (fun i j l => .fin (v i j l)) →
      v 0 0 1 * (paBins 1 - paBins 0) = v 0 0 0 * (paBins 2 - paBins 1) := by
  intro h
  have hp := Real.pi_pos
  have hE : IsBin (.fin exInfo.energyMin) (.fin exInfo.energyMax) := ⟨by simp [exInfo], by simp [exInfo]⟩
  have hw : ∃ w : Fin 1 → Fin 1 → ℝ, nShowersPerEnergyAndFov exInfo ![.fin exInfo.energyMin, .fin exInfo.energyMax]
      ![exInfo.viewconeMin, exInfo.viewconeMax] = .ok (fun i j => .fin (w i j)) ∧ w 0 0 = 100 := by
    obtain ⟨v, h1, -, h3⟩ := C30_sums exInfo exInfo_valid exInfo_diffuse ![.fin exInfo.energyMin, .fin exInfo.energyMax]
      ![exInfo.viewconeMin, exInfo.viewconeMax] (fun i => by fin_cases i; exact hE)
      (fun i => by fin_cases i; simp [StrictlyContainsRange, FV.lt_irrefl'])
      (fun i => by fin_cases i; exact exInfo_diffuse.lt.le) le_rfl le_rfl
    refine ⟨v, h1, ?_⟩
    have := h3 (by simp) (by simp [Fin.last])
    simpa [exInfo] using this
  obtain ⟨w, hw, hw0⟩ := hw
  obtain ⟨v, hv, hv2, -⟩ := C31_polar_sum exInfo exInfo_valid.showers exInfo_diffuse (k := 2) (by norm_num)
    ![.fin exInfo.energyMin, .fin exInfo.energyMax] ![exInfo.viewconeMin, exInfo.viewconeMax] ![0, Real.pi / 2, 2 * Real.pi] w hw
  have hm : StrictMono (![0, Real.pi / 2, 2 * Real.pi] : Fin 3 → ℝ) := by
    rw [Fin.strictMono_iff_lt_succ]
    intro i; fin_cases i
    · show (0:ℝ) < Real.pi / 2
      positivity
    · show Real.pi / 2 < 2 * Real.pi
      linarith
  have := h exInfo exInfo_valid exInfo_diffuse _ _ ![0, Real.pi / 2, 2 * Real.pi] v hm rfl rfl hv
  rw [hv2, hv2, hw0] at this
  simp at this
  linarith

/-- **C82** Every position-angle bin gets the same share of the two-dimensional number, whatever its edges. So for bins that make up the full
circle, and a cell with showers, the numbers are those in proportion to the width exactly if all bins are equally wide. -/
theorem C82_equal_shares (s : Info) (hn : 0 < s.nShowers) (hd : Diffuse s) {n m k : ℕ} (hk : 0 < k)
    (energyBins : Fin (n + 1) → FV ℝ) (offsetBins : Fin (m + 1) → ℝ) (paBins : Fin (k + 1) → ℝ) (w : Fin n → Fin m → ℝ)
    (hw : nShowersPerEnergyAndFov s energyBins offsetBins = .ok (fun i j => .fin (w i j)))
    (hfull : paBins (Fin.last k) - paBins 0 = 2 * Real.pi) :
    ∃ v : Fin n → Fin m → Fin k → ℝ, nShowers3dPolar s energyBins offsetBins paBins = .ok (fun i j l => .fin (v i j l)) ∧
      (∀ i j l l', v i j l = v i j l') ∧ (∀ i j l, v i j l = w i j / k) ∧
      ∀ i j, w i j ≠ 0 → ((∀ l, v i j l = w i j * ((paBins l.succ - paBins l.castSucc) / (2 * Real.pi))) ↔
        ∀ l l' : Fin k, paBins l.succ - paBins l.castSucc = paBins l'.succ - paBins l'.castSucc) := by
  obtain ⟨v, h1, h2, -⟩ := C31_polar_sum s hn hd hk energyBins offsetBins paBins w hw
  refine ⟨v, h1, fun i j l l' => by rw [h2, h2], h2, ?_⟩
  intro i j hne
  have hp := Real.pi_pos
  have hk' : (0:ℝ) < k := by exact_mod_cast hk
  constructor
  · intro h l l'
    have e1 := h l
    have e2 := h l'
    rw [h2] at e1 e2
    have := mul_left_cancel₀ hne (e1.symm.trans e2)
    have hpi : (2 * Real.pi) ≠ 0 := by positivity
    field_simp at this
    linarith
  · intro heq l
    have ht := sum_telescope k paBins
    rw [Finset.sum_congr rfl (fun l' _ => heq l' l)] at ht
    simp only [Finset.sum_const, Finset.card_univ, Fintype.card_fin, nsmul_eq_mul] at ht
    rw [hfull] at ht
    have hwid : paBins l.succ - paBins l.castSucc ≠ 0 := by
      intro h0; rw [h0, mul_zero] at ht; linarith
    rw [h2, ← ht]
    field_simp

end Pyirf.Simulations
