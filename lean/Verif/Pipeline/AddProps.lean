import Verif.Pipeline.FoldProps
import Verif.Irf.BackgroundProps

/-!
# Joining event lists, repeating events, scaling weights (C120)
-/
set_option linter.unusedSectionVars false

namespace Pyirf.Pipeline
open Pyirf Pyirf.Np Pyirf.Simulations Pyirf.Irf Pyirf.Utils Pyirf.Binning

theorem numberWhere_append {σ : Type*} (l k : List σ) (P : σ → Prop) [DecidablePred P] : numberWhere (l ++ k) P = numberWhere l P + numberWhere k P := by
  simp [numberWhere]

/-! ## Histogram tables -/

section hist
variable {K : Type*} [Field K] [LinearOrder K] [IsStrictOrderedRing K]

theorem sumOver_append (r s : List (Event K)) (P : Event K → Prop) [DecidablePred P] (w : Event K → K) :
    sumOver (r ++ s) P w = sumOver r P w + sumOver s P w := by
  simp [sumOver]

/-- **C120** Histogram tables of two event lists (both with or both without weights) add up, bin by bin, to the table of the joined list. -/
theorem C120_histogram_table (t1 t2 : EventTable K) (edges : List (FV K)) (h : Increasing edges) (hl : 2 ≤ edges.length)
    (hw : t1.hasWeight = t2.hasWeight) (hp : t1.hasParticle = t2.hasParticle) (hc : t1.hasParticle = true → NoClash (t1.rows ++ t2.rows)) :
    ∃ tab1 tab2 tab, createHistogramTable t1 edges = .ok tab1 ∧ createHistogramTable t2 edges = .ok tab2 ∧
      createHistogramTable ⟨t1.hasWeight, t1.hasParticle, t1.rows ++ t2.rows⟩ edges = .ok tab ∧
      ∀ i, i + 1 < edges.length →
        tab.cell "n" i = tab1.cell "n" i + tab2.cell "n" i ∧
        tab.cell "n_weighted" i = tab1.cell "n_weighted" i + tab2.cell "n_weighted" i := by
  have sub1 : t1.hasParticle = true → NoClash t1.rows := by
    intro h0
    have := hc h0
    intro p hp
    refine ⟨(this p ?_).1, fun q hq => (this p ?_).2 q ?_⟩
    all_goals simp only [particles, List.map_append, List.mem_append] at *
    all_goals first | exact Or.inl hp | exact Or.inl hq
  have sub2 : t2.hasParticle = true → NoClash t2.rows := by
    intro h0
    have := hc (hp.trans h0)
    intro p hp
    refine ⟨(this p ?_).1, fun q hq => (this p ?_).2 q ?_⟩
    all_goals simp only [particles, List.map_append, List.mem_append] at *
    all_goals first | exact Or.inr hp | exact Or.inr hq
  obtain ⟨tab1, a1, -, -, -, a2, -⟩ := C05_histogram_table t1 edges h hl sub1
  obtain ⟨tab2, b1, -, -, -, b2, -⟩ := C05_histogram_table t2 edges h hl sub2
  obtain ⟨tab, c1, -, -, -, c2, -⟩ := C05_histogram_table ⟨t1.hasWeight, t1.hasParticle, t1.rows ++ t2.rows⟩ edges h hl hc
  refine ⟨tab1, tab2, tab, a1, b1, c1, fun i hi => ?_⟩
  rw [(a2 i hi).1, (a2 i hi).2, (b2 i hi).1, (b2 i hi).2, (c2 i hi).1, (c2 i hi).2]
  constructor
  · simp [countEvents]
  · have e1 : effWeight (⟨t1.hasWeight, t1.hasParticle, t1.rows ++ t2.rows⟩ : EventTable K) = effWeight t1 := rfl
    have e2 : effWeight t2 = effWeight t1 := by unfold effWeight; rw [hw]
    rw [e1, e2]
    exact sumOver_append _ _ _ _
end hist

/-! ## Effective area -/

/-- **C120** Where showers were simulated, the effective areas (per energy and offset) of two selections without common events add up to the
effective area of their union. -/
theorem C120_effective_area_fov (e1 e2 : List TrueEvent) (s : Info) {n k : ℕ} (bins : Fin (n + 1) → FV ℝ) (hb : IncEdges bins)
    (fov : Fin (k + 1) → ℝ) (hf : Monotone fov) (N : Fin n → Fin k → ℝ)
    (hN : nShowersPerEnergyAndFov s bins fov = .ok fun i j => .fin (N i j)) (hpos : ∀ i j, N i j ≠ 0) :
    ∃ A1 A2 : Fin n → Fin k → ℝ, effectiveAreaPerEnergyAndFov e1 s bins fov = .ok (fun i j => .fin (A1 i j)) ∧
      effectiveAreaPerEnergyAndFov e2 s bins fov = .ok (fun i j => .fin (A2 i j)) ∧
      effectiveAreaPerEnergyAndFov (e1 ++ e2) s bins fov = .ok fun i j => .fin (A1 i j + A2 i j) := by
  refine ⟨_, _, areaFov_eq e1 s bins hb fov hf N hN hpos, areaFov_eq e2 s bins hb fov hf N hN hpos, ?_⟩
  rw [areaFov_eq (e1 ++ e2) s bins hb fov hf N hN hpos]
  congr 1
  funext i j
  rw [numberWhere_append]
  congr 1
  push_cast
  ring

/-! ## Densities -/

/-- **C120** The energy dispersion of a joined list is the mean of the two dispersions, weighted with the numbers of events in the bin. -/
theorem C120_dispersion_mixture {n m k : ℕ} (big : ℝ) (e1 e2 : List RecoEvent) (trueBins : Fin (n + 1) → FV ℝ) (ht : IncEdges trueBins)
    (fovBins : Fin (k + 1) → FV ℝ) (hf : IncEdges fovBins) (mig : Fin (m + 1) → ℝ) (hmig : StrictMono mig) (hm : 0 < m) :
    ∃ D1 D2 D : Fin n → Fin m → Fin k → ℝ,
      energyDispersion big e1 trueBins fovBins (finEdges mig) = .ok (fun i a j => .fin (D1 i a j)) ∧
      energyDispersion big e2 trueBins fovBins (finEdges mig) = .ok (fun i a j => .fin (D2 i a j)) ∧
      energyDispersion big (e1 ++ e2) trueBins fovBins (finEdges mig) = .ok (fun i a j => .fin (D i a j)) ∧
      ∀ i a j,
        let N := fun l : List RecoEvent => (numberWhere l (fun e => (InBinOf trueBins i e.trueEnergy ∧ InBinOf fovBins j e.offset) ∧
          InRangeOf (finEdges mig) (e.recoEnergy / e.trueEnergy)) : ℝ)
        D i a j * (N e1 + N e2) = D1 i a j * N e1 + D2 i a j * N e2 := by
  have hmE : IncEdges (finEdges mig) := incEdges_fin hmig.monotone
  have key : ∀ l : List RecoEvent, ∃ D : Fin n → Fin m → Fin k → ℝ,
      energyDispersion big l trueBins fovBins (finEdges mig) = .ok (fun i a j => .fin (D i a j)) ∧
      ∀ i a j, D i a j * (mig a.succ - mig a.castSucc) *
        (numberWhere l (fun e => (InBinOf trueBins i e.trueEnergy ∧ InBinOf fovBins j e.offset) ∧ InRangeOf (finEdges mig) (e.recoEnergy / e.trueEnergy)) : ℝ) =
        numberWhere l (fun e => (InBinOf trueBins i e.trueEnergy ∧ InBinOf fovBins j e.offset) ∧ InBinOf (finEdges mig) a (e.recoEnergy / e.trueEnergy)) := by
    intro l
    obtain ⟨D, h1, -, h3⟩ := C39_energy_dispersion big l trueBins ht fovBins hf mig hmig hm
    refine ⟨D, h1, fun i a j => ?_⟩
    by_cases h : ∃ e ∈ l, (InBinOf trueBins i e.trueEnergy ∧ InBinOf fovBins j e.offset) ∧ InRangeOf (finEdges mig) (e.recoEnergy / e.trueEnergy)
    · exact ((h3 i j).1 h).2 a
    · rw [(h3 i j).2 h a, zero_mul, zero_mul]
      rw [(numberWhere_eq_zero l).mpr (fun e he hc => h ⟨e, he, hc.1, (inBinOf_range hmE hm _).mp ⟨a, hc.2⟩⟩), Nat.cast_zero]
  obtain ⟨D1, a1, a2⟩ := key e1
  obtain ⟨D2, b1, b2⟩ := key e2
  obtain ⟨D, c1, c2⟩ := key (e1 ++ e2)
  refine ⟨D1, D2, D, a1, b1, c1, fun i a j => ?_⟩
  have h1 := a2 i a j
  have h2 := b2 i a j
  have h3 := c2 i a j
  rw [numberWhere_append, numberWhere_append] at h3
  push_cast at h3
  have hw : mig a.succ - mig a.castSucc ≠ 0 := (sub_pos.mpr (hmig Fin.castSucc_lt_succ)).ne'
  apply mul_right_cancel₀ hw
  linarith

/-- **C120** The point spread function of a joined list is the mean of the two, weighted with the numbers of events in the bin. -/
theorem C120_psf_mixture {n m k : ℕ} (big : ℝ) (e1 e2 : List RecoEvent) (trueBins : Fin (n + 1) → FV ℝ) (ht : IncEdges trueBins)
    (off : Fin (m + 1) → ℝ) (hoff : StrictMono off) (h0 : 0 ≤ off 0) (hpi : off (Fin.last m) ≤ Real.pi)
    (fovBins : Fin (k + 1) → FV ℝ) (hf : IncEdges fovBins) (hm : 0 < m) :
    ∃ D1 D2 D : Fin n → Fin k → Fin m → ℝ,
      psfTable big e1 trueBins off fovBins = .ok (fun i j a => .fin (D1 i j a)) ∧
      psfTable big e2 trueBins off fovBins = .ok (fun i j a => .fin (D2 i j a)) ∧
      psfTable big (e1 ++ e2) trueBins off fovBins = .ok (fun i j a => .fin (D i j a)) ∧
      ∀ i j a,
        let N := fun l : List RecoEvent => (numberWhere l (fun e => (InBinOf trueBins i e.trueEnergy ∧ InBinOf fovBins j e.offset) ∧
          InRangeOf (finEdges off) e.theta) : ℝ)
        D i j a * (N e1 + N e2) = D1 i j a * N e1 + D2 i j a * N e2 := by
  have hmE : IncEdges (finEdges off) := incEdges_fin hoff.monotone
  have key : ∀ l : List RecoEvent, ∃ D : Fin n → Fin k → Fin m → ℝ,
      psfTable big l trueBins off fovBins = .ok (fun i j a => .fin (D i j a)) ∧
      ∀ i j a, D i j a * (2 * Real.pi * (Real.cos (off a.castSucc) - Real.cos (off a.succ))) *
        (numberWhere l (fun e => (InBinOf trueBins i e.trueEnergy ∧ InBinOf fovBins j e.offset) ∧ InRangeOf (finEdges off) e.theta) : ℝ) =
        numberWhere l (fun e => (InBinOf trueBins i e.trueEnergy ∧ InBinOf fovBins j e.offset) ∧ InBinOf (finEdges off) a e.theta) := by
    intro l
    obtain ⟨D, h1, -, h3⟩ := C41_psf_table big l trueBins ht off hoff h0 hpi fovBins hf hm
    refine ⟨D, h1, fun i j a => ?_⟩
    by_cases h : ∃ e ∈ l, (InBinOf trueBins i e.trueEnergy ∧ InBinOf fovBins j e.offset) ∧ InRangeOf (finEdges off) e.theta
    · exact ((h3 i j).1 h).2 a
    · rw [(h3 i j).2 h a, zero_mul, zero_mul]
      rw [(numberWhere_eq_zero l).mpr (fun e he hc => h ⟨e, he, hc.1, (inBinOf_range hmE hm _).mp ⟨a, hc.2⟩⟩), Nat.cast_zero]
  obtain ⟨D1, a1, a2⟩ := key e1
  obtain ⟨D2, b1, b2⟩ := key e2
  obtain ⟨D, c1, c2⟩ := key (e1 ++ e2)
  refine ⟨D1, D2, D, a1, b1, c1, fun i j a => ?_⟩
  have h1 := a2 i j a
  have h2 := b2 i j a
  have h3 := c2 i j a
  rw [numberWhere_append, numberWhere_append] at h3
  push_cast at h3
  have hcos : Real.cos (off a.succ) < Real.cos (off a.castSucc) := by
    refine Real.cos_lt_cos_of_nonneg_of_le_pi ?_ ?_ (hoff Fin.castSucc_lt_succ)
    · exact h0.trans (hoff.monotone (Fin.zero_le _))
    · exact (hoff.monotone (Fin.le_last _)).trans hpi
  have hw : 2 * Real.pi * (Real.cos (off a.castSucc) - Real.cos (off a.succ)) ≠ 0 := by
    have := Real.pi_pos
    have : 0 < Real.cos (off a.castSucc) - Real.cos (off a.succ) := sub_pos.mpr hcos
    positivity
  apply mul_right_cancel₀ hw
  linarith

/-- an event list written `r` times -/
def repeated {σ : Type*} (r : ℕ) (l : List σ) : List σ := (List.replicate r l).flatten

theorem repeated_map {σ ρ : Type*} (r : ℕ) (l : List σ) (f : σ → ρ) : (repeated r l).map f = repeated r (l.map f) := by
  simp [repeated, List.map_flatten]

theorem repeated_sum {σ : Type*} (r : ℕ) (l : List σ) (p : σ → Bool) (w : σ → ℝ) :
    (((repeated r l).filter p).map w).sum = r * ((l.filter p).map w).sum := by
  induction r with
  | zero => simp [repeated]
  | succ r ih =>
    have : repeated (r + 1) l = l ++ repeated r l := by simp [repeated, List.replicate_succ]
    rw [this, List.filter_append, List.map_append, List.sum_append, ih]
    push_cast; ring

theorem histogram3d_repeated {n m k : ℕ} (e1 : Fin (n + 1) → FV ℝ) (e2 : Fin (m + 1) → FV ℝ) (e3 : Fin (k + 1) → FV ℝ) (r : ℕ)
    (rows : List (FV ℝ × FV ℝ × FV ℝ × ℝ)) :
    histogram3d e1 e2 e3 (repeated r rows) = match histogram3d e1 e2 e3 rows with
      | .error e => .error e
      | .ok h => .ok fun i j l => (r : ℝ) * h i j l := by
  unfold histogram3d
  split
  · rfl
  · simp only [repeated_sum]

theorem ratio_repeated {r : ℕ} (hr : r ≠ 0) (x y : ℝ) : FV.fin ((r : ℝ) * x) / FV.fin ((r : ℝ) * y) = FV.fin x / FV.fin y := by
  have hr' : (0:ℝ) < r := by exact_mod_cast Nat.pos_of_ne_zero hr
  by_cases hy : y = 0
  · subst hy
    rw [mul_zero, FV.fin_div_zero, FV.fin_div_zero]
    unfold FV.infSign
    rcases lt_trichotomy x 0 with h | h | h
    · simp [h, h.ne, hr, h.not_gt, mul_neg_of_pos_of_neg hr' h, (mul_neg_of_pos_of_neg hr' h).not_gt]
    · simp [h]
    · simp [h, h.ne', hr, mul_pos hr' h]
  · rw [FV.fin_div_fin _ _ (mul_ne_zero hr'.ne' hy), FV.fin_div_fin _ _ hy, mul_div_mul_left _ _ hr'.ne']

/-- **C120** Repeating the whole event list leaves dispersion, migration matrix and PSF as they are (for any edges, also when they raise). -/
theorem C120_repeated {n m k : ℕ} (big : ℝ) (r : ℕ) (hr : r ≠ 0) (events : List RecoEvent) (trueBins : Fin (n + 1) → FV ℝ)
    (fovBins : Fin (k + 1) → FV ℝ) (migBins : Fin (m + 1) → FV ℝ) (off : Fin (m + 1) → ℝ) :
    energyDispersion big ((List.replicate r events).flatten) trueBins fovBins migBins = energyDispersion big events trueBins fovBins migBins ∧
    energyMigrationMatrix ((List.replicate r events).flatten) trueBins migBins fovBins = energyMigrationMatrix events trueBins migBins fovBins ∧
    psfTable big ((List.replicate r events).flatten) trueBins off fovBins = psfTable big events trueBins off fovBins := by
  change energyDispersion big (repeated r events) trueBins fovBins migBins = _ ∧
    energyMigrationMatrix (repeated r events) trueBins migBins fovBins = _ ∧ psfTable big (repeated r events) trueBins off fovBins = _
  refine ⟨?_, ?_, ?_⟩
  · unfold energyDispersion
    rw [repeated_map, histogram3d_repeated]
    generalize histogram3d (K := ℝ) _ _ _ _ = h
    cases h with
    | error e => rfl
    | ok h =>
      simp only []
      congr 1
      funext i a j
      unfold normalizeHist
      simp only [← Finset.mul_sum, ratio_repeated hr]
  · unfold energyMigrationMatrix
    rw [repeated_map, histogram3d_repeated]
    generalize histogram3d (K := ℝ) _ _ _ _ = h
    cases h with
    | error e => rfl
    | ok h =>
      simp only []
      congr 1
      funext i a j
      simp only [← Finset.mul_sum, ratio_repeated hr]
  · unfold psfTable
    rw [repeated_map, histogram3d_repeated]
    generalize histogram3d (K := ℝ) _ _ _ _ = h
    cases h with
    | error e => rfl
    | ok h =>
      simp only []
      congr 1
      funext i j a
      unfold normalizePsf
      simp only [← Finset.mul_sum, ratio_repeated hr]

/-! ## Background -/

theorem weightWhere_append (e1 e2 : List BackgroundEvent) (P : BackgroundEvent → Prop) [DecidablePred P] :
    weightWhere (e1 ++ e2) P = weightWhere e1 P + weightWhere e2 P := sumWhere_append _ _ _ _

/-- the events with all weights multiplied by `c` -/
def scaleWeights (c : ℝ) (events : List BackgroundEvent) : List BackgroundEvent := events.map fun e => { e with weight := c * e.weight }

theorem weightWhere_scale (c : ℝ) (l : List BackgroundEvent) (P : BackgroundEvent → Prop) [DecidablePred P]
    (hP : ∀ e : BackgroundEvent, P { e with weight := c * e.weight } ↔ P e) : weightWhere (scaleWeights c l) P = c * weightWhere l P := by
  unfold weightWhere scaleWeights
  rw [sumWhere_map]
  induction l with
  | nil => simp [sumWhere]
  | cons e l ih =>
    rw [sumWhere_cons, sumWhere_cons, ih]
    simp only [hP]
    split <;> ring

/-- **C120** Background rates are linear in the events: the rate of a joined list is the sum of the rates, multiplying all weights by a number
multiplies the rate, and the rate is inversely proportional to the observation time. -/
theorem C120_background_2d {n m : ℕ} (e1 e2 : List BackgroundEvent) (c : ℝ) (energy : Fin (n + 1) → ℝ) (he : StrictMono energy)
    (off : Fin (m + 1) → ℝ) (hoff : StrictMono off) (h0 : 0 ≤ off 0) (hpi : off (Fin.last m) ≤ Real.pi) (tObs r : ℝ) (ht : 0 < tObs) (hr : 0 < r)
    (hn : 0 < n) (hm : 0 < m) :
    ∃ d1 d2 : Fin n → Fin m → ℝ,
      background2d e1 (finEdges energy) off tObs = .ok (fun i j => .fin (d1 i j)) ∧
      background2d e2 (finEdges energy) off tObs = .ok (fun i j => .fin (d2 i j)) ∧
      background2d (e1 ++ e2) (finEdges energy) off tObs = .ok (fun i j => .fin (d1 i j + d2 i j)) ∧
      background2d (e1.map fun e => { e with weight := c * e.weight }) (finEdges energy) off tObs = .ok (fun i j => .fin (c * d1 i j)) ∧
      background2d e1 (finEdges energy) off (r * tObs) = .ok (fun i j => .fin (d1 i j / r)) := by
  have hpos : ∀ i j, (energy (Fin.succ i) - energy (Fin.castSucc i)) * (2 * Real.pi * (Real.cos (off (Fin.castSucc j)) - Real.cos (off (Fin.succ j)))) * tObs ≠ 0 := by
    intro i j
    have h1 : 0 < energy (Fin.succ i) - energy (Fin.castSucc i) := sub_pos.mpr (he Fin.castSucc_lt_succ)
    have h2 : 0 < Real.cos (off (Fin.castSucc j)) - Real.cos (off (Fin.succ j)) := by
      apply sub_pos.mpr
      refine Real.cos_lt_cos_of_nonneg_of_le_pi ?_ ?_ (hoff Fin.castSucc_lt_succ)
      · exact h0.trans (hoff.monotone (Fin.zero_le _))
      · exact (hoff.monotone (Fin.le_last _)).trans hpi
    have := Real.pi_pos
    positivity
  obtain ⟨d1, a1, a2, -⟩ := C42_background_2d e1 energy he off hoff h0 hpi tObs ht hn hm
  obtain ⟨d2, b1, b2, -⟩ := C42_background_2d e2 energy he off hoff h0 hpi tObs ht hn hm
  obtain ⟨d3, c1, c2, -⟩ := C42_background_2d (e1 ++ e2) energy he off hoff h0 hpi tObs ht hn hm
  obtain ⟨d4, f1, f2, -⟩ := C42_background_2d (scaleWeights c e1) energy he off hoff h0 hpi tObs ht hn hm
  obtain ⟨d5, g1, g2, -⟩ := C42_background_2d e1 energy he off hoff h0 hpi (r * tObs) (mul_pos hr ht) hn hm
  refine ⟨d1, d2, a1, b1, ?_, ?_, ?_⟩
  · rw [c1]
    congr 1
    funext i j
    congr 1
    apply mul_right_cancel₀ (hpos i j)
    have h1 := a2 i j
    have h2 := b2 i j
    have h3 := c2 i j
    rw [weightWhere_append] at h3
    linarith
  · refine f1.trans ?_
    congr 1
    funext i j
    congr 1
    apply mul_right_cancel₀ (hpos i j)
    have h1 := a2 i j
    have h2 := f2 i j
    rw [weightWhere_scale c e1 _ (fun e => Iff.rfl), ← h1] at h2
    linarith
  · rw [g1]
    congr 1
    funext i j
    congr 1
    rw [eq_div_iff hr.ne']
    apply mul_right_cancel₀ (hpos i j)
    have h1 := a2 i j
    have h2 := g2 i j
    rw [← h1] at h2
    linarith

/-- **C120** The same for `background_3d_lonlat` (whenever it does not raise, C43): shapes are equal and the entries of a joined list are the sums
of the entries; multiplying the weights multiplies the entries. -/
theorem C120_background_3d {n p q : ℕ} (e1 e2 : List BackgroundEvent) (c : ℝ) (energy : Fin (n + 1) → ℝ) (he : StrictMono energy)
    (lon : Fin (p + 1) → ℝ) (lat : Fin (q + 1) → ℝ) (hlon : StrictMono lon) (hlat : StrictMono lat) (hb : ∀ l, |lat l| ≤ Real.pi / 2)
    (tObs : ℝ) (ht : 0 < tObs) (hn : 0 < n) (hp : 0 < p) (hq : 0 < q) (a1 a2 a3 a4 : Arr3 (FV ℝ))
    (h1 : background3dLonlat e1 (finEdges energy) lon lat tObs = .ok a1) (h2 : background3dLonlat e2 (finEdges energy) lon lat tObs = .ok a2)
    (h3 : background3dLonlat (e1 ++ e2) (finEdges energy) lon lat tObs = .ok a3)
    (h4 : background3dLonlat (e1.map fun e => { e with weight := c * e.weight }) (finEdges energy) lon lat tObs = .ok a4) :
    a1.shape = a2.shape ∧ a1.shape = a3.shape ∧ a1.shape = a4.shape ∧
    ∀ i j l, i < a1.shape.1 → j < a1.shape.2.1 → l < a1.shape.2.2 → ∃ x y : ℝ, a1.val i j l = .fin x ∧ a2.val i j l = .fin y ∧
      a3.val i j l = .fin (x + y) ∧ a4.val i j l = .fin (c * x) := by
  obtain ⟨s1, v1⟩ := C43_entries e1 energy he lon lat hlon hlat hb tObs ht hn hp hq a1 h1
  obtain ⟨s2, v2⟩ := C43_entries e2 energy he lon lat hlon hlat hb tObs ht hn hp hq a2 h2
  obtain ⟨s3, v3⟩ := C43_entries (e1 ++ e2) energy he lon lat hlon hlat hb tObs ht hn hp hq a3 h3
  obtain ⟨s4, v4⟩ := C43_entries (scaleWeights c e1) energy he lon lat hlon hlat hb tObs ht hn hp hq a4 h4
  have hpq : p = q ∨ p = 1 ∨ q = 1 := (C43_error_iff e1 energy he lon hlon.monotone lat hlat.monotone tObs ht).2.mp ⟨a1, h1⟩
  refine ⟨s1.trans s2.symm, s1.trans s3.symm, s1.trans s4.symm, fun i j l hi hj hl => ?_⟩
  rw [s1] at hi hj hl
  simp only at hi hj hl
  obtain ⟨lLon, hLon⟩ : ∃ lLon : Fin p, (lLon : ℕ) = l ∨ p = 1 := by
    by_cases h : l < p
    · exact ⟨⟨l, h⟩, Or.inl rfl⟩
    · refine ⟨⟨0, hp⟩, Or.inr ?_⟩
      rcases hpq with rfl | h' | rfl
      · rw [max_self] at hl; omega
      · exact h'
      · rw [max_eq_left hp] at hl; omega
  obtain ⟨lLat, hLat⟩ : ∃ lLat : Fin q, (lLat : ℕ) = l ∨ q = 1 := by
    by_cases h : l < q
    · exact ⟨⟨l, h⟩, Or.inl rfl⟩
    · refine ⟨⟨0, hq⟩, Or.inr ?_⟩
      rcases hpq with rfl | rfl | h'
      · rw [max_self] at hl; omega
      · rw [max_eq_right hq] at hl; omega
      · exact h'
  obtain ⟨x, hx, hx'⟩ := v1 ⟨i, hi⟩ ⟨j, hj⟩ l lLon lLat hl hLon hLat
  obtain ⟨y, hy, hy'⟩ := v2 ⟨i, hi⟩ ⟨j, hj⟩ l lLon lLat hl hLon hLat
  obtain ⟨z, hz, hz'⟩ := v3 ⟨i, hi⟩ ⟨j, hj⟩ l lLon lLat hl hLon hLat
  obtain ⟨w, hw, hw'⟩ := v4 ⟨i, hi⟩ ⟨j, hj⟩ l lLon lLat hl hLon hLat
  simp only at hx hy hz hw
  have hcell : 0 < cellSolidAngle (lon lLon.castSucc) (lon lLon.succ) (lat lLat.castSucc) (lat lLat.succ) := by
    unfold cellSolidAngle
    refine mul_pos (sub_pos.mpr (hlon Fin.castSucc_lt_succ)) (sub_pos.mpr ?_)
    exact Real.sin_lt_sin_of_lt_of_le_pi_div_two (abs_le.mp (hb _)).1 (abs_le.mp (hb _)).2 (hlat Fin.castSucc_lt_succ)
  have hE : 0 < energy (Fin.succ ⟨i, hi⟩) - energy (Fin.castSucc ⟨i, hi⟩) := sub_pos.mpr (he Fin.castSucc_lt_succ)
  have hne : (energy (Fin.succ ⟨i, hi⟩) - energy (Fin.castSucc ⟨i, hi⟩)) *
      cellSolidAngle (lon lLon.castSucc) (lon lLon.succ) (lat lLat.castSucc) (lat lLat.succ) * tObs ≠ 0 := by positivity
  refine ⟨x, y, hx, hy, ?_, ?_⟩
  · rw [hz]
    congr 1
    apply mul_right_cancel₀ hne
    rw [weightWhere_append] at hz'
    linarith
  · rw [hw]
    congr 1
    apply mul_right_cancel₀ hne
    rw [weightWhere_scale c e1 _ (fun e => Iff.rfl), ← hx'] at hw'
    linarith

/-! ## Satisfiability -/

example : StrictMono (![0, Real.pi / 2] : Fin 2 → ℝ) ∧ (![0, Real.pi / 2] : Fin 2 → ℝ) (Fin.last 1) ≤ Real.pi := by
  have := Real.pi_pos
  refine ⟨?_, ?_⟩
  · rw [Fin.strictMono_iff_lt_succ]
    intro i
    fin_cases i
    show (0:ℝ) < Real.pi / 2
    linarith
  · show Real.pi / 2 ≤ Real.pi
    linarith

example : NoClash ([⟨.fin 1, 2, "gamma"⟩] ++ [⟨.fin 3, 1, "proton"⟩] : List (Event ℝ)) := by
  unfold NoClash particles
  decide

end Pyirf.Pipeline
