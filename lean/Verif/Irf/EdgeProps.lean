import Verif.Irf.Model

/-!
# C147: bin edges that do not increase are refused
-/
set_option linter.unusedSectionVars false

namespace Pyirf.Irf
open Pyirf Pyirf.Np Pyirf.Simulations

/-! ## Specification -/

/-- Some edge is larger than the next one. -/
def Descends {n : ℕ} (e : Fin (n + 1) → FV ℝ) : Prop := ∃ i : Fin n, FV.lt (e i.succ) (e i.castSucc) = true

/-- Some edge of an axis of finite numbers is larger than the next one. -/
def DescendsR {n : ℕ} (e : Fin (n + 1) → ℝ) : Prop := ∃ i : Fin n, e i.succ < e i.castSucc

theorem badEdges_iff {n : ℕ} (e : Fin (n + 1) → FV ℝ) : badEdges e ↔ Descends e := Iff.rfl

theorem badEdges_fin {n : ℕ} (e : Fin (n + 1) → ℝ) : badEdges (finEdges e) ↔ DescendsR e := by
  unfold badEdges DescendsR
  refine exists_congr fun i => ?_
  show FV.lt (FV.fin (e i.succ)) (FV.fin (e i.castSucc)) = true ↔ _
  rw [FV.lt_fin, decide_eq_true_eq]

/-! ## Property -/

/-- **C147** `energy_dispersion` raises ValueError exactly if edges of one of its axes decrease somewhere. -/
theorem C147_energy_dispersion {n m k : ℕ} (big : ℝ) (events : List RecoEvent) (trueEnergy : Fin (n + 1) → FV ℝ) (fov : Fin (k + 1) → FV ℝ) (migration : Fin (m + 1) → FV ℝ) :
    (energyDispersion big events trueEnergy fov migration = .error .valueError ↔ Descends trueEnergy ∨ Descends migration ∨ Descends fov) ∧
    ((∃ d, energyDispersion big events trueEnergy fov migration = .ok d) ↔ ¬ (Descends trueEnergy ∨ Descends migration ∨ Descends fov)) := by
  unfold energyDispersion histogram3d
  by_cases h : badEdges trueEnergy ∨ badEdges migration ∨ badEdges fov
  · have h' : Descends trueEnergy ∨ Descends migration ∨ Descends fov := h
    simp only [if_pos h]
    simp [h']
  · have h' : ¬ (Descends trueEnergy ∨ Descends migration ∨ Descends fov) := h
    simp only [if_neg h]
    simp [h']

/-- **C147** `energy_migration_matrix` likewise. -/
theorem C147_migration_matrix {n m k : ℕ} (events : List RecoEvent) (trueEnergy : Fin (n + 1) → FV ℝ) (recoEnergy : Fin (m + 1) → FV ℝ) (fov : Fin (k + 1) → FV ℝ) :
    (energyMigrationMatrix events trueEnergy recoEnergy fov = .error .valueError ↔ Descends trueEnergy ∨ Descends recoEnergy ∨ Descends fov) ∧
    ((∃ d, energyMigrationMatrix events trueEnergy recoEnergy fov = .ok d) ↔ ¬ (Descends trueEnergy ∨ Descends recoEnergy ∨ Descends fov)) := by
  unfold energyMigrationMatrix histogram3d
  by_cases h : badEdges trueEnergy ∨ badEdges recoEnergy ∨ badEdges fov
  · have h' : Descends trueEnergy ∨ Descends recoEnergy ∨ Descends fov := h
    simp only [if_pos h]
    simp [h']
  · have h' : ¬ (Descends trueEnergy ∨ Descends recoEnergy ∨ Descends fov) := h
    simp only [if_neg h]
    simp [h']

/-- **C147** `psf_table` likewise. -/
theorem C147_psf_table {n k m : ℕ} (big : ℝ) (events : List RecoEvent) (trueEnergy : Fin (n + 1) → FV ℝ) (source : Fin (m + 1) → ℝ) (fov : Fin (k + 1) → FV ℝ) :
    (psfTable big events trueEnergy source fov = .error .valueError ↔ Descends trueEnergy ∨ Descends fov ∨ DescendsR source) ∧
    ((∃ d, psfTable big events trueEnergy source fov = .ok d) ↔ ¬ (Descends trueEnergy ∨ Descends fov ∨ DescendsR source)) := by
  unfold psfTable histogram3d
  by_cases h : badEdges trueEnergy ∨ badEdges fov ∨ badEdges (finEdges source)
  · have h' : Descends trueEnergy ∨ Descends fov ∨ DescendsR source := by rwa [badEdges_fin, badEdges_iff, badEdges_iff] at h
    simp only [if_pos h]
    simp [h']
  · have h' : ¬ (Descends trueEnergy ∨ Descends fov ∨ DescendsR source) := by rwa [badEdges_fin, badEdges_iff, badEdges_iff] at h
    simp only [if_neg h]
    simp [h']

/-- **C147** `background_2d` likewise. -/
theorem C147_background_2d {n m : ℕ} (events : List BackgroundEvent) (energy : Fin (n + 1) → FV ℝ) (fov : Fin (m + 1) → ℝ) (tObs : ℝ) :
    (background2d events energy fov tObs = .error .valueError ↔ Descends energy ∨ DescendsR fov) ∧
    ((∃ d, background2d events energy fov tObs = .ok d) ↔ ¬ (Descends energy ∨ DescendsR fov)) := by
  unfold background2d histogram2d
  by_cases h : badEdges energy ∨ badEdges (finEdges fov)
  · have h' : Descends energy ∨ DescendsR fov := by rwa [badEdges_fin, badEdges_iff] at h
    simp only [if_pos h]
    simp [h']
  · have h' : ¬ (Descends energy ∨ DescendsR fov) := by rwa [badEdges_fin, badEdges_iff] at h
    simp only [if_neg h]
    simp [h']

/-- **C147** `background_3d_lonlat` raises ValueError if edges decrease (it also does for other reasons, C43). -/
theorem C147_background_3d {n p q : ℕ} (events : List BackgroundEvent) (energy : Fin (n + 1) → FV ℝ) (lon : Fin (p + 1) → ℝ) (lat : Fin (q + 1) → ℝ) (tObs : ℝ)
    (h : Descends energy ∨ DescendsR lon ∨ DescendsR lat) : background3dLonlat events energy lon lat tObs = .error .valueError := by
  unfold background3dLonlat histogram3d
  have h' : badEdges energy ∨ badEdges (finEdges lon) ∨ badEdges (finEdges lat) := by rwa [badEdges_fin, badEdges_fin, badEdges_iff]
  simp only [if_pos h']

/-- **C147** The effective areas in energy and field of view fail if edges decrease, whatever the simulation and the events. -/
theorem C147_effective_area {n m k : ℕ} (events : List TrueEvent) (info : Info) (energy : Fin (n + 1) → FV ℝ) (a : Fin (m + 1) → ℝ) (b : Fin (k + 1) → ℝ) (g : Grid m k) :
    (Descends energy ∨ DescendsR a → ∃ e, effectiveAreaPerEnergyAndFov events info energy a = .error e) ∧
    (Descends energy ∨ DescendsR a ∨ DescendsR b → ∃ e, effectiveArea3dPolar events info energy a b = .error e) ∧
    (Descends energy ∨ DescendsR g.lon ∨ DescendsR g.lat → ∀ s, ∃ e, effectiveArea3dLonlat events info energy g s = .error e) := by
  refine ⟨fun h => ?_, fun h => ?_, fun h s => ?_⟩
  · have h' : badEdges energy ∨ badEdges (finEdges a) := by rwa [badEdges_fin, badEdges_iff]
    unfold effectiveAreaPerEnergyAndFov histogram2d
    simp only [if_pos h']
    split
    · exact ⟨_, rfl⟩
    · exact ⟨_, rfl⟩
  · have h' : badEdges energy ∨ badEdges (finEdges a) ∨ badEdges (finEdges b) := by rwa [badEdges_fin, badEdges_fin, badEdges_iff]
    unfold effectiveArea3dPolar histogram3d
    simp only [if_pos h']
    split
    · exact ⟨_, rfl⟩
    · exact ⟨_, rfl⟩
  · have h' : badEdges energy ∨ badEdges (finEdges g.lon) ∨ badEdges (finEdges g.lat) := by rwa [badEdges_fin, badEdges_fin, badEdges_iff]
    unfold effectiveArea3dLonlat histogram3d
    simp only [if_pos h']
    split
    · exact ⟨_, rfl⟩
    · exact ⟨_, rfl⟩

/-! ## The hypotheses can be met -/

example : Descends (n := 2) (fun i => FV.fin ((![1, 3, 2] : Fin 3 → ℝ) i)) := ⟨1, by rw [FV.lt_fin, decide_eq_true_eq]; show (2 : ℝ) < 3; norm_num⟩
example : ¬ Descends (n := 2) (fun i => FV.fin ((![1, 2, 2] : Fin 3 → ℝ) i)) := by
  rintro ⟨i, hi⟩
  rw [FV.lt_fin, decide_eq_true_eq] at hi
  fin_cases i <;> simp at hi

end Pyirf.Irf
