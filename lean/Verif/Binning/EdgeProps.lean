import Verif.Binning.WeightModel

/-!
# C147: histogram tables with edges that do not increase
-/
set_option linter.unusedSectionVars false

namespace Pyirf.Binning
open Pyirf
variable {K : Type*} [Field K] [LinearOrder K]

theorem anyDescent_of {edges : List (FV K)} {i : ℕ} (hi : i + 1 < edges.length) (h : FV.lt edges[i + 1] edges[i] = true) : Np.anyDescent edges = true := by
  unfold Np.anyDescent
  rw [List.any_eq_true]
  have hlen : i < (List.zipWith FV.gt edges edges.tail).length := by simp [List.length_zipWith]; omega
  refine ⟨_, List.getElem_mem hlen, ?_⟩
  rw [List.getElem_zipWith, List.getElem_tail]
  exact h

/-- **C147** `create_histogram_table` raises ValueError if some edge is larger than the next one, whatever the events and their weights. -/
theorem C147_histogram_table (t : WEventTable K) (edges : List (FV K)) (i : ℕ) (hi : i + 1 < edges.length) (h : FV.lt edges[i + 1] edges[i] = true) :
    createHistogramTableF t edges = .error .valueError := by
  unfold createHistogramTableF histogramF
  rw [anyDescent_of hi h]
  rfl

/-- **C147** the same in the model with finite weights -/
theorem C147_histogram_table_finite (t : EventTable K) (edges : List (FV K)) (i : ℕ) (hi : i + 1 < edges.length) (h : FV.lt edges[i + 1] edges[i] = true) :
    createHistogramTable t edges = .error .valueError := by
  unfold createHistogramTable Np.histogram
  rw [anyDescent_of hi h]
  rfl

/-- the hypothesis can be met -/
example : ∃ i, ∃ hi : i + 1 < ([FV.fin 1, FV.fin 3, FV.fin 2] : List (FV ℚ)).length, FV.lt ([FV.fin 1, FV.fin 3, FV.fin 2] : List (FV ℚ))[i + 1] ([FV.fin 1, FV.fin 3, FV.fin 2] : List (FV ℚ))[i] = true :=
  ⟨1, by decide, by decide +kernel⟩

end Pyirf.Binning
