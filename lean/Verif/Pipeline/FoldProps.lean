import Verif.Irf.EffAreaProps
import Verif.Irf.DensityProps

/-!
# Forward folding (C119)

The response functions made from one list of selected simulated events fit together: effective area times simulated showers, folded with
dispersion, migration matrix or point spread function, gives back the numbers of selected events.
-/
set_option linter.unusedSectionVars false

namespace Pyirf.Pipeline
open Pyirf Pyirf.Np Pyirf.Simulations Pyirf.Irf Pyirf.Utils Pyirf.Binning

/-- The events as the effective area sees them: the same true energies and offsets. -/
def SameEvents (events : List RecoEvent) (trueEvents : List TrueEvent) : Prop :=
  trueEvents.map (fun e => (e.energy, e.offset)) = events.map fun e => (e.trueEnergy, e.offset)

theorem numberWhere_map {σ ρ : Type*} (l : List σ) (f : σ → ρ) (P : ρ → Prop) [DecidablePred P] :
    numberWhere (l.map f) P = numberWhere l (fun x => P (f x)) := by
  unfold numberWhere
  rw [List.filter_map, List.length_map]
  rfl

theorem numberWhere_congr {σ : Type*} (l : List σ) {P Q : σ → Prop} [DecidablePred P] [DecidablePred Q] (h : ∀ x ∈ l, P x ↔ Q x) :
    numberWhere l P = numberWhere l Q := by
  unfold numberWhere
  congr 1
  apply List.filter_congr
  intro x hx
  simp only [h x hx]

theorem numberWhere_eq_zero {σ : Type*} (l : List σ) {P : σ → Prop} [DecidablePred P] : numberWhere l P = 0 ↔ ∀ x ∈ l, ¬ P x := by
  unfold numberWhere
  simp [List.length_eq_zero_iff]

theorem sum_numberWhere {σ ι : Type*} [Fintype ι] (l : List σ) (P : ι → σ → Prop) [∀ i, DecidablePred (P i)] (Q : σ → Prop) [DecidablePred Q]
    (hu : ∀ r i j, P i r → P j r → i = j) (hc : ∀ r, Q r ↔ ∃ i, P i r) : ∑ i, (numberWhere l (P i) : ℝ) = numberWhere l Q := by
  have := sum_sumWhere (K := ℝ) l P Q (fun _ => 1) hu hc
  simpa only [sumWhere_one, numberWhere] using this

/-- numbers of selected events in the true energy and offset bins -/
theorem selected_numbers {events : List RecoEvent} {trueEvents : List TrueEvent} (hs : SameEvents events trueEvents) {n k : ℕ}
    (bins : Fin (n + 1) → FV ℝ) (fov : Fin (k + 1) → FV ℝ) (i : Fin n) (j : Fin k) :
    numberWhere trueEvents (fun e => InBinOf bins i e.energy ∧ InBinOf fov j e.offset) =
      numberWhere events (fun e => InBinOf bins i e.trueEnergy ∧ InBinOf fov j e.offset) := by
  have h1 := numberWhere_map trueEvents (fun e => (e.energy, e.offset)) (fun p : FV ℝ × FV ℝ => InBinOf bins i p.1 ∧ InBinOf fov j p.2)
  have h2 := numberWhere_map events (fun e => (e.trueEnergy, e.offset)) (fun p : FV ℝ × FV ℝ => InBinOf bins i p.1 ∧ InBinOf fov j p.2)
  rw [hs] at h1
  exact h1.symm.trans h2

/-- the effective area from the simulated numbers that `calculate_n_showers_per_energy_and_fov` gives -/
theorem areaFov_eq (trueEvents : List TrueEvent) (s : Info) {n k : ℕ} (bins : Fin (n + 1) → FV ℝ) (hb : IncEdges bins)
    (fov : Fin (k + 1) → ℝ) (hf : Monotone fov) (N : Fin n → Fin k → ℝ)
    (hN : nShowersPerEnergyAndFov s bins fov = .ok fun i j => .fin (N i j)) (hpos : ∀ i j, N i j ≠ 0) :
    effectiveAreaPerEnergyAndFov trueEvents s bins fov = .ok fun i j =>
      .fin (numberWhere trueEvents (fun e => InBinOf bins i e.energy ∧ InBinOf (finEdges fov) j e.offset) / N i j * simulatedArea s) := by
  unfold effectiveAreaPerEnergyAndFov
  simp only [hN, histogram2d_ok hb (show IncEdges (finEdges fov) from incEdges_fin hf)]
  congr 1
  funext i j
  rw [sumWhere_count trueEvents (fun e => (e.energy, e.offset, (1:ℝ))) _ (fun r => r.2.2) (fun _ => rfl)]
  unfold effectiveArea
  rw [FV.fin_div_fin _ _ (hpos i j), FV.fin_mul_fin]
  rfl

/-- What a density `d` per cell `a` (already multiplied with the size of the cell) and the counts give. -/
theorem fold_cell {sel inRange cell : ℕ} {A N area x : ℝ} (hA : A = sel / N * area) (hN : N ≠ 0) (harea : area ≠ 0) (hx : x * inRange = cell) :
    A * N / area * x * inRange = sel * cell := by
  have : A * N / area = sel := by rw [hA]; field_simp
  rw [this, mul_assoc, hx]

section
variable (events : List RecoEvent) (trueEvents : List TrueEvent) (hs : SameEvents events trueEvents) (s : Info) (hR : s.maxImpact ≠ 0)
  {n m k : ℕ} (bins : Fin (n + 1) → FV ℝ) (hb : IncEdges bins) (fov : Fin (k + 1) → ℝ) (hf : Monotone fov) (N : Fin n → Fin k → ℝ)
  (hN : nShowersPerEnergyAndFov s bins fov = .ok fun i j => .fin (N i j)) (hpos : ∀ i j, N i j ≠ 0)
include hs hR hb hf hN hpos

/-- **C119** Effective area times simulated showers per area, times an entry of the energy migration matrix: if every selected event of the true
energy and offset bin has its reconstructed energy in the range of the bins, this is the number of selected events in the bin of true energy,
reconstructed energy and offset; in general it is that number times the ratio of selected events to those in the range. Summed over true energies and
offsets, it is the histogram of the reconstructed energies. -/
theorem C119_fold_migration (recoBins : Fin (m + 1) → FV ℝ) (hr : IncEdges recoBins) (hn : 0 < n) (hm : 0 < m) (hk : 0 < k) :
    ∃ (A : Fin n → Fin k → ℝ) (M : Fin n → Fin m → Fin k → ℝ),
      effectiveAreaPerEnergyAndFov trueEvents s bins fov = .ok (fun i j => .fin (A i j)) ∧
      energyMigrationMatrix events bins recoBins (finEdges fov) = .ok (fun i a j => .fin (M i a j)) ∧
      (∀ i a j, A i j * N i j / (Real.pi * s.maxImpact ^ 2) * M i a j *
          numberWhere events (fun e => (InBinOf bins i e.trueEnergy ∧ InBinOf (finEdges fov) j e.offset) ∧ InRangeOf recoBins e.recoEnergy) =
        numberWhere events (fun e => InBinOf bins i e.trueEnergy ∧ InBinOf (finEdges fov) j e.offset) *
          numberWhere events (fun e => (InBinOf bins i e.trueEnergy ∧ InBinOf (finEdges fov) j e.offset) ∧ InBinOf recoBins a e.recoEnergy)) ∧
      ((∀ e ∈ events, InRangeOf bins e.trueEnergy → InRangeOf (finEdges fov) e.offset → InRangeOf recoBins e.recoEnergy) →
        (∀ i a j, A i j * N i j / (Real.pi * s.maxImpact ^ 2) * M i a j =
          numberWhere events (fun e => (InBinOf bins i e.trueEnergy ∧ InBinOf (finEdges fov) j e.offset) ∧ InBinOf recoBins a e.recoEnergy)) ∧
        ∀ a, ∑ i, ∑ j, A i j * N i j / (Real.pi * s.maxImpact ^ 2) * M i a j =
          numberWhere events (fun e => InRangeOf bins e.trueEnergy ∧ InRangeOf (finEdges fov) e.offset ∧ InBinOf recoBins a e.recoEnergy)) := by
  have hfE : IncEdges (finEdges fov) := incEdges_fin hf
  have harea : Real.pi * s.maxImpact ^ 2 ≠ 0 := mul_ne_zero Real.pi_ne_zero (pow_ne_zero _ hR)
  obtain ⟨M, hM1, hM2, hM3⟩ := C40_migration_matrix events bins hb recoBins hr (finEdges fov) hfE hm
  have hA := areaFov_eq trueEvents s bins hb fov hf N hN hpos
  simp only [selected_numbers hs] at hA
  have hcell : ∀ i a j, M i a j *
      (numberWhere events (fun e => (InBinOf bins i e.trueEnergy ∧ InBinOf (finEdges fov) j e.offset) ∧ InRangeOf recoBins e.recoEnergy) : ℝ) =
      numberWhere events (fun e => (InBinOf bins i e.trueEnergy ∧ InBinOf (finEdges fov) j e.offset) ∧ InBinOf recoBins a e.recoEnergy) := by
    intro i a j
    by_cases h : ∃ e ∈ events, (InBinOf bins i e.trueEnergy ∧ InBinOf (finEdges fov) j e.offset) ∧ InRangeOf recoBins e.recoEnergy
    · exact ((hM3 i j).1 h).2 a
    · rw [(hM3 i j).2 h a, zero_mul]
      have : numberWhere events (fun e => (InBinOf bins i e.trueEnergy ∧ InBinOf (finEdges fov) j e.offset) ∧ InBinOf recoBins a e.recoEnergy) = 0 := by
        rw [numberWhere_eq_zero]
        exact fun e he hc => h ⟨e, he, hc.1, (inBinOf_range hr hm e.recoEnergy).mp ⟨a, hc.2⟩⟩
      rw [this, Nat.cast_zero]
  refine ⟨_, M, hA, hM1, fun i a j => fold_cell rfl (hpos i j) harea (hcell i a j), fun hall => ?_⟩
  have hsel : ∀ i j, numberWhere events (fun e => (InBinOf bins i e.trueEnergy ∧ InBinOf (finEdges fov) j e.offset) ∧ InRangeOf recoBins e.recoEnergy) =
      numberWhere events (fun e => InBinOf bins i e.trueEnergy ∧ InBinOf (finEdges fov) j e.offset) := by
    intro i j
    apply numberWhere_congr
    intro e he
    exact ⟨fun h => h.1, fun h => ⟨h, hall e he ((inBinOf_range hb hn _).mp ⟨i, h.1⟩) ((inBinOf_range hfE hk _).mp ⟨j, h.2⟩)⟩⟩
  have hcells : ∀ i a j, (numberWhere events (fun e => InBinOf bins i e.trueEnergy ∧ InBinOf (finEdges fov) j e.offset) / N i j * simulatedArea s) *
      N i j / (Real.pi * s.maxImpact ^ 2) * M i a j =
      numberWhere events (fun e => (InBinOf bins i e.trueEnergy ∧ InBinOf (finEdges fov) j e.offset) ∧ InBinOf recoBins a e.recoEnergy) := by
    intro i a j
    have h := hcell i a j
    rw [hsel] at h
    rw [← h]
    have h0 := hpos i j
    unfold simulatedArea
    field_simp
  refine ⟨hcells, fun a => ?_⟩
  rw [← Finset.sum_product']
  simp only [hcells]
  rw [Finset.univ_product_univ]
  rw [sum_numberWhere events (fun (p : Fin n × Fin k) e => (InBinOf bins p.1 e.trueEnergy ∧ InBinOf (finEdges fov) p.2 e.offset) ∧ InBinOf recoBins a e.recoEnergy)
    (fun e => InRangeOf bins e.trueEnergy ∧ InRangeOf (finEdges fov) e.offset ∧ InBinOf recoBins a e.recoEnergy)]
  · rintro e ⟨i, j⟩ ⟨i', j'⟩ h h'
    exact Prod.ext (inBinOf_unique hb h.1.1 h'.1.1) (inBinOf_unique hfE h.1.2 h'.1.2)
  · intro e
    rw [← inBinOf_range hb hn, ← inBinOf_range hfE hk]
    constructor
    · rintro ⟨⟨i, hi⟩, ⟨j, hj⟩, ha⟩
      exact ⟨(i, j), ⟨hi, hj⟩, ha⟩
    · rintro ⟨⟨i, j⟩, ⟨hi, hj⟩, ha⟩
      exact ⟨⟨i, hi⟩, ⟨j, hj⟩, ha⟩

/-- **C119** The same with the energy dispersion: effective area times simulated showers per area, times dispersion times width of the migration
bin. -/
theorem C119_fold_dispersion (big : ℝ) (mig : Fin (m + 1) → ℝ) (hmig : StrictMono mig) (hn : 0 < n) (hm : 0 < m) (hk : 0 < k) :
    ∃ (A : Fin n → Fin k → ℝ) (D : Fin n → Fin m → Fin k → ℝ),
      effectiveAreaPerEnergyAndFov trueEvents s bins fov = .ok (fun i j => .fin (A i j)) ∧
      energyDispersion big events bins (finEdges fov) (finEdges mig) = .ok (fun i a j => .fin (D i a j)) ∧
      (∀ i a j, A i j * N i j / (Real.pi * s.maxImpact ^ 2) * (D i a j * (mig a.succ - mig a.castSucc)) *
          numberWhere events (fun e => (InBinOf bins i e.trueEnergy ∧ InBinOf (finEdges fov) j e.offset) ∧ InRangeOf (finEdges mig) (e.recoEnergy / e.trueEnergy)) =
        numberWhere events (fun e => InBinOf bins i e.trueEnergy ∧ InBinOf (finEdges fov) j e.offset) *
          numberWhere events (fun e => (InBinOf bins i e.trueEnergy ∧ InBinOf (finEdges fov) j e.offset) ∧ InBinOf (finEdges mig) a (e.recoEnergy / e.trueEnergy))) ∧
      ((∀ e ∈ events, InRangeOf bins e.trueEnergy → InRangeOf (finEdges fov) e.offset → InRangeOf (finEdges mig) (e.recoEnergy / e.trueEnergy)) →
        ∀ i a j, A i j * N i j / (Real.pi * s.maxImpact ^ 2) * (D i a j * (mig a.succ - mig a.castSucc)) =
          numberWhere events (fun e => (InBinOf bins i e.trueEnergy ∧ InBinOf (finEdges fov) j e.offset) ∧ InBinOf (finEdges mig) a (e.recoEnergy / e.trueEnergy))) := by
  have hfE : IncEdges (finEdges fov) := incEdges_fin hf
  have hmE : IncEdges (finEdges mig) := incEdges_fin hmig.monotone
  have harea : Real.pi * s.maxImpact ^ 2 ≠ 0 := mul_ne_zero Real.pi_ne_zero (pow_ne_zero _ hR)
  obtain ⟨D, hM1, hM2, hM3⟩ := C39_energy_dispersion big events bins hb (finEdges fov) hfE mig hmig hm
  have hA := areaFov_eq trueEvents s bins hb fov hf N hN hpos
  simp only [selected_numbers hs] at hA
  have hcell : ∀ i a j, (D i a j * (mig a.succ - mig a.castSucc)) *
      (numberWhere events (fun e => (InBinOf bins i e.trueEnergy ∧ InBinOf (finEdges fov) j e.offset) ∧ InRangeOf (finEdges mig) (e.recoEnergy / e.trueEnergy)) : ℝ) =
      numberWhere events (fun e => (InBinOf bins i e.trueEnergy ∧ InBinOf (finEdges fov) j e.offset) ∧ InBinOf (finEdges mig) a (e.recoEnergy / e.trueEnergy)) := by
    intro i a j
    by_cases h : ∃ e ∈ events, (InBinOf bins i e.trueEnergy ∧ InBinOf (finEdges fov) j e.offset) ∧ InRangeOf (finEdges mig) (e.recoEnergy / e.trueEnergy)
    · exact ((hM3 i j).1 h).2 a
    · rw [(hM3 i j).2 h a, zero_mul, zero_mul]
      have : numberWhere events (fun e => (InBinOf bins i e.trueEnergy ∧ InBinOf (finEdges fov) j e.offset) ∧ InBinOf (finEdges mig) a (e.recoEnergy / e.trueEnergy)) = 0 := by
        rw [numberWhere_eq_zero]
        exact fun e he hc => h ⟨e, he, hc.1, (inBinOf_range hmE hm _).mp ⟨a, hc.2⟩⟩
      rw [this, Nat.cast_zero]
  refine ⟨_, D, hA, hM1, fun i a j => fold_cell rfl (hpos i j) harea (hcell i a j), fun hall i a j => ?_⟩
  have hsel : numberWhere events (fun e => (InBinOf bins i e.trueEnergy ∧ InBinOf (finEdges fov) j e.offset) ∧ InRangeOf (finEdges mig) (e.recoEnergy / e.trueEnergy)) =
      numberWhere events (fun e => InBinOf bins i e.trueEnergy ∧ InBinOf (finEdges fov) j e.offset) := by
    apply numberWhere_congr
    intro e he
    exact ⟨fun h => h.1, fun h => ⟨h, hall e he ((inBinOf_range hb hn _).mp ⟨i, h.1⟩) ((inBinOf_range hfE hk _).mp ⟨j, h.2⟩)⟩⟩
  have h := hcell i a j
  rw [hsel] at h
  rw [← h]
  have h0 := hpos i j
  unfold simulatedArea
  field_simp

/-- **C119** The same with the point spread function: effective area times simulated showers per area, times PSF times solid angle of the ring. -/
theorem C119_fold_psf (big : ℝ) (off : Fin (m + 1) → ℝ) (hoff : StrictMono off) (h0 : 0 ≤ off 0) (hpi : off (Fin.last m) ≤ Real.pi)
    (hn : 0 < n) (hm : 0 < m) (hk : 0 < k) :
    ∃ (A : Fin n → Fin k → ℝ) (P : Fin n → Fin k → Fin m → ℝ),
      effectiveAreaPerEnergyAndFov trueEvents s bins fov = .ok (fun i j => .fin (A i j)) ∧
      psfTable big events bins off (finEdges fov) = .ok (fun i j a => .fin (P i j a)) ∧
      (∀ i j a, A i j * N i j / (Real.pi * s.maxImpact ^ 2) * (P i j a * (2 * Real.pi * (Real.cos (off a.castSucc) - Real.cos (off a.succ)))) *
          numberWhere events (fun e => (InBinOf bins i e.trueEnergy ∧ InBinOf (finEdges fov) j e.offset) ∧ InRangeOf (finEdges off) e.theta) =
        numberWhere events (fun e => InBinOf bins i e.trueEnergy ∧ InBinOf (finEdges fov) j e.offset) *
          numberWhere events (fun e => (InBinOf bins i e.trueEnergy ∧ InBinOf (finEdges fov) j e.offset) ∧ InBinOf (finEdges off) a e.theta)) ∧
      ((∀ e ∈ events, InRangeOf bins e.trueEnergy → InRangeOf (finEdges fov) e.offset → InRangeOf (finEdges off) e.theta) →
        ∀ i j a, A i j * N i j / (Real.pi * s.maxImpact ^ 2) * (P i j a * (2 * Real.pi * (Real.cos (off a.castSucc) - Real.cos (off a.succ)))) =
          numberWhere events (fun e => (InBinOf bins i e.trueEnergy ∧ InBinOf (finEdges fov) j e.offset) ∧ InBinOf (finEdges off) a e.theta)) := by
  have hfE : IncEdges (finEdges fov) := incEdges_fin hf
  have hmE : IncEdges (finEdges off) := incEdges_fin hoff.monotone
  have harea : Real.pi * s.maxImpact ^ 2 ≠ 0 := mul_ne_zero Real.pi_ne_zero (pow_ne_zero _ hR)
  obtain ⟨P, hM1, hM2, hM3⟩ := C41_psf_table big events bins hb off hoff h0 hpi (finEdges fov) hfE hm
  have hA := areaFov_eq trueEvents s bins hb fov hf N hN hpos
  simp only [selected_numbers hs] at hA
  have hcell : ∀ i j a, (P i j a * (2 * Real.pi * (Real.cos (off a.castSucc) - Real.cos (off a.succ)))) *
      (numberWhere events (fun e => (InBinOf bins i e.trueEnergy ∧ InBinOf (finEdges fov) j e.offset) ∧ InRangeOf (finEdges off) e.theta) : ℝ) =
      numberWhere events (fun e => (InBinOf bins i e.trueEnergy ∧ InBinOf (finEdges fov) j e.offset) ∧ InBinOf (finEdges off) a e.theta) := by
    intro i j a
    by_cases h : ∃ e ∈ events, (InBinOf bins i e.trueEnergy ∧ InBinOf (finEdges fov) j e.offset) ∧ InRangeOf (finEdges off) e.theta
    · exact ((hM3 i j).1 h).2 a
    · rw [(hM3 i j).2 h a, zero_mul, zero_mul]
      have : numberWhere events (fun e => (InBinOf bins i e.trueEnergy ∧ InBinOf (finEdges fov) j e.offset) ∧ InBinOf (finEdges off) a e.theta) = 0 := by
        rw [numberWhere_eq_zero]
        exact fun e he hc => h ⟨e, he, hc.1, (inBinOf_range hmE hm _).mp ⟨a, hc.2⟩⟩
      rw [this, Nat.cast_zero]
  refine ⟨_, P, hA, hM1, fun i j a => fold_cell rfl (hpos i j) harea (hcell i j a), fun hall i j a => ?_⟩
  have hsel : numberWhere events (fun e => (InBinOf bins i e.trueEnergy ∧ InBinOf (finEdges fov) j e.offset) ∧ InRangeOf (finEdges off) e.theta) =
      numberWhere events (fun e => InBinOf bins i e.trueEnergy ∧ InBinOf (finEdges fov) j e.offset) := by
    apply numberWhere_congr
    intro e he
    exact ⟨fun h => h.1, fun h => ⟨h, hall e he ((inBinOf_range hb hn _).mp ⟨i, h.1⟩) ((inBinOf_range hfE hk _).mp ⟨j, h.2⟩)⟩⟩
  have h := hcell i j a
  rw [hsel] at h
  rw [← h]
  have h0 := hpos i j
  unfold simulatedArea
  field_simp
end

/-! ## Satisfiability -/

/-- a simulation whose showers all lie in one energy and offset bin, and two selected events in it -/
example : ∃ N : Fin 1 → Fin 1 → ℝ,
    nShowersPerEnergyAndFov exCone ![.fin 1, .fin 10] ![0, 3 * deg] = .ok (fun i j => .fin (N i j)) ∧ (∀ i j, N i j ≠ 0) ∧
    SameEvents [⟨.fin 2, .fin 3, .fin deg, .fin 0⟩, ⟨.fin 5, .fin 4, .fin deg, .fin 0⟩]
      [⟨.fin 2, .fin deg, .nan, .nan, .nan⟩, ⟨.fin 5, .fin deg, .nan, .nan, .nan⟩] := by
  have hE : ∀ i : Fin 1, IsBin ((![.fin 1, .fin 10] : Fin 2 → FV ℝ) i.castSucc) ((![.fin 1, .fin 10] : Fin 2 → FV ℝ) i.succ) := by
    intro i; fin_cases i; exact ⟨by simp, by simp⟩
  have hc : ∀ i : Fin 1, ¬ StrictlyContainsRange exCone ((![.fin 1, .fin 10] : Fin 2 → FV ℝ) i.castSucc) ((![.fin 1, .fin 10] : Fin 2 → FV ℝ) i.succ) := by
    intro i; fin_cases i; simp [StrictlyContainsRange, exCone]
  obtain ⟨v, h1, -, h3⟩ := C30_sums exCone exCone_valid exCone_diffuse ![.fin 1, .fin 10] (![0, 3 * deg] : Fin 2 → ℝ) hE hc
    (by intro i; fin_cases i; show (0:ℝ) ≤ 3 * deg; linarith [deg_pos]) (by simp [exCone]) (by simp [exCone])
  refine ⟨v, h1, ?_, rfl⟩
  have h4 := h3 (by simp [exCone]) (by simp [exCone, Fin.last])
  intro i j
  fin_cases i; fin_cases j
  simp only [Fin.sum_univ_one] at h4
  show v 0 0 ≠ 0
  refine ne_of_eq_of_ne h4 ?_
  norm_num [exCone]

end Pyirf.Pipeline
