import Verif.Binning.HistProps

/-! # Closed form of the columns of a histogram table -/
set_option linter.unusedSectionVars false
set_option linter.unusedSimpArgs false

namespace Pyirf.Binning
open Pyirf
variable {K : Type*} [Field K] [LinearOrder K] [IsStrictOrderedRing K]

/-- no particle column is called `n` -/
theorem n_not_particle (p : String) : "n" ≠ "n_" ++ p ∧ "n" ≠ "n_" ++ p ++ "_weighted" := by
  constructor
  · intro hh
    have := congrArg String.length hh
    rw [String.length_append, show "n".length = 1 from rfl, show "n_".length = 2 from rfl] at this
    omega
  · intro hh
    have := congrArg String.length hh
    rw [String.length_append, String.length_append, show "n".length = 1 from rfl,
      show "n_".length = 2 from rfl] at this
    omega

/-- `n_weighted` is a particle column only of a type called `weighted` -/
theorem n_weighted_not_particle (p : String) (hp : p ≠ "weighted") :
    "n_weighted" ≠ "n_" ++ p ∧ "n_weighted" ≠ "n_" ++ p ++ "_weighted" := by
  constructor
  · intro hh
    have h3 : "n_" ++ "weighted" = "n_" ++ p := hh
    exact hp (prefix_inj.mp h3).symm
  · intro hh
    have h4 : "weighted" = p ++ "_weighted" := prefix_suffix_ne.mp hh
    have := congrArg String.length h4
    rw [String.length_append, show "weighted".length = 8 from rfl,
      show "_weighted".length = 9 from rfl] at this
    omega

/-- All columns of the table, when no particle name collides. `n` and `n_weighted` only need that no type is called
`weighted`. -/
theorem createHistogramTable_cols {edges : List (FV K)} (h : Increasing edges) (t : EventTable K)
    (hw : t.hasParticle = true → "weighted" ∉ particles t.rows) :
    ∃ tab, createHistogramTable t edges = .ok tab ∧ tab.low = edges.dropLast ∧ tab.high = edges.tail ∧
      tab.center = binCenter edges ∧
      tab.cols "n" = some (column edges t.rows (fun _ => 1)) ∧
      tab.cols "n_weighted" = some (column edges t.rows (effWeight t)) ∧
      (t.hasParticle = true → NoClash t.rows → ∀ p ∈ particles t.rows,
        tab.cols ("n_" ++ p) = some (column edges (t.rows.filter (fun e => e.particle = p)) (fun _ => 1)) ∧
        tab.cols ("n_" ++ p ++ "_weighted")
          = some (column edges (t.rows.filter (fun e => e.particle = p)) (effWeight t))) := by
  refine ⟨_, createHistogramTable_ok h t, rfl, rfl, rfl, ?_, ?_, ?_⟩
  · simp only []
    rw [particleCols_other]
    · simp only [Cols.set]; rw [if_neg (by decide)]; simp
    · exact fun p _ => n_not_particle p
  · simp only []
    rw [particleCols_other]
    · simp [Cols.set]
    · intro p hp
      split at hp
      · rename_i hh
        exact n_weighted_not_particle p (fun h => hw hh (h ▸ (mem_groupKeys _ _).mp hp))
      · simp at hp
  · intro hp hcl p hpm
    simp only [hp, if_true]
    exact particleCols_mem edges t _ (groupKeys t.rows) (nodup_groupKeys _)
      (fun p hp q hq => (hcl p ((mem_groupKeys _ _).mp hp)).2 q ((mem_groupKeys _ _).mp hq)) p
      ((mem_groupKeys _ _).mpr hpm)

end Pyirf.Binning
