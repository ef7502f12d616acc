import Verif.Sensitivity.Model
import Verif.Binning.HistCols
import Verif.Utils.Props

/-! # Lemmas for estimate_background -/
set_option linter.unusedSectionVars false
set_option linter.unusedSimpArgs false

namespace Pyirf.Sensitivity
open Pyirf Pyirf.Binning Pyirf.Utils

theorem get_map_cols (t : Table (FV ℝ)) (f : String → List (FV ℝ) → List (FV ℝ)) (name : String) (col : List (FV ℝ))
    (h : t.get name = .ok col) : Table.get ⟨t.cols.map fun c => (c.1, f c.1 c.2)⟩ name = .ok (f name col) := by
  unfold Table.get at h ⊢
  have : (t.cols.map fun c => (c.1, f c.1 c.2)).find? (fun c => decide (c.1 = name)) =
      (t.cols.find? (fun c => decide (c.1 = name))).map fun c => (c.1, f c.1 c.2) := by
    rw [List.find?_map]
    rfl
  simp only [this]
  cases hf : t.cols.find? (fun c => decide (c.1 = name)) with
  | none => rw [hf] at h; exact absurd h (by simp)
  | some c =>
    rw [hf] at h
    have h1 := List.find?_some hf
    simp only [decide_eq_true_eq] at h1
    have h2 := Except.ok.inj h
    simp only [Option.map_some, h1, h2]

theorem toTable_get_low (names : List String) (h : HistTable ℝ) :
    (toTable names h).get "reco_energy_low" = .ok h.low := rfl
theorem toTable_get_high (names : List String) (h : HistTable ℝ) :
    (toTable names h).get "reco_energy_high" = .ok h.high := rfl
theorem toTable_get_center (names : List String) (h : HistTable ℝ) :
    (toTable names h).get "reco_energy_center" = .ok h.center := rfl

theorem toTable_get (names : List String) (h : HistTable ℝ) (name : String) (c : List ℝ)
    (hn : scaled name = true) (hm : name ∈ names) (hc : h.cols name = some c) :
    (toTable names h).get name = .ok (c.map FV.fin) := by
  have hne : ∀ s : String, scaled s = false → s ≠ name := by
    intro s hs he; rw [he, hn] at hs; exact absurd hs (by simp)
  have hfind : (names.filterMap (fun n => (h.cols n).map (fun c => (n, c.map FV.fin)))).find?
      (fun c => decide (c.1 = name)) = some (name, c.map FV.fin) := by
    induction names with
    | nil => simp at hm
    | cons a l ih =>
      by_cases ha : a = name
      · subst ha
        rw [List.filterMap_cons, hc]
        simp
      · have hl : name ∈ l := by
          rcases List.mem_cons.mp hm with h' | h'
          · exact absurd h'.symm ha
          · exact h'
        rw [List.filterMap_cons]
        cases hcols : h.cols a with
        | none => simpa using ih hl
        | some c' =>
          simp only [Option.map_some]
          rw [List.find?_cons]
          simp only [ha, decide_false]
          exact ih hl
  unfold Table.get toTable
  simp only [List.cons_append, List.nil_append]
  rw [List.find?_cons, List.find?_cons, List.find?_cons]
  simp only [hne "reco_energy_low" (by decide), hne "reco_energy_high" (by decide),
    hne "reco_energy_center" (by decide), decide_false, hfind]

theorem scaled_n : scaled "n" = true := by decide
theorem scaled_nw : scaled "n_weighted" = true := by decide
theorem scaled_prefix (p : String) : scaled ("n_" ++ p) = true := by
  unfold scaled
  rw [List.isPrefixOf_iff_prefix, String.toList_append]
  exact ⟨'_' :: p.toList, rfl⟩

theorem n_mem_countNames (hp : Bool) (rows : List (Event ℝ)) : "n" ∈ countNames hp rows := by
  unfold countNames; rw [List.mem_reverse, List.mem_dedup, List.mem_reverse]; simp
theorem nw_mem_countNames (hp : Bool) (rows : List (Event ℝ)) : "n_weighted" ∈ countNames hp rows := by
  unfold countNames; rw [List.mem_reverse, List.mem_dedup, List.mem_reverse]; simp
theorem particle_mem_countNames (rows : List (Event ℝ)) (p : String) (hp : p ∈ particles rows) :
    "n_" ++ p ∈ countNames true rows ∧ "n_" ++ p ++ "_weighted" ∈ countNames true rows := by
  have hpos : 0 < rows.length := by
    rcases rows with _ | ⟨a, l⟩
    · simp [particles] at hp
    · simp
  unfold countNames
  rw [List.mem_reverse, List.mem_dedup, List.mem_reverse, List.mem_reverse, List.mem_dedup, List.mem_reverse]
  constructor
  · rw [List.mem_append]; right
    simp only [Bool.true_and, hpos, decide_true, if_true]
    rw [List.mem_flatMap]
    exact ⟨p, (mem_groupKeys _ _).mpr hp, by simp⟩
  · rw [List.mem_append]; right
    simp only [Bool.true_and, hpos, decide_true, if_true]
    rw [List.mem_flatMap]
    exact ⟨p, (mem_groupKeys _ _).mpr hp, by simp⟩

/-- The columns of `create_histogram_table` as a table. -/
theorem histTable_cols {edges : List (FV ℝ)} (h : Increasing edges) (hasWeight hasParticle : Bool) (rows : List (Event ℝ))
    (hw : hasParticle = true → "weighted" ∉ particles rows) :
    ∃ T, histTable hasWeight hasParticle rows edges = .ok T ∧
      T.get "reco_energy_low" = .ok edges.dropLast ∧ T.get "reco_energy_high" = .ok edges.tail ∧
      T.get "reco_energy_center" = .ok (binCenter edges) ∧
      T.get "n" = .ok ((column edges rows (fun _ => 1)).map FV.fin) ∧
      T.get "n_weighted" = .ok ((column edges rows (fun e => if hasWeight then e.weight else 1)).map FV.fin) ∧
      (hasParticle = true → NoClash rows → ∀ p ∈ particles rows,
        T.get ("n_" ++ p) = .ok ((column edges (rows.filter (fun e => e.particle = p)) (fun _ => 1)).map FV.fin) ∧
        T.get ("n_" ++ p ++ "_weighted")
          = .ok ((column edges (rows.filter (fun e => e.particle = p)) (fun e => if hasWeight then e.weight else 1)).map FV.fin)) := by
  obtain ⟨tab, h0, h1, h2, h3, h4, h5, h6⟩ := createHistogramTable_cols h ⟨hasWeight, hasParticle, rows⟩ hw
  refine ⟨toTable (countNames hasParticle rows) tab, ?_, ?_, ?_, ?_, ?_, ?_, ?_⟩
  · unfold histTable; rw [h0]
  · rw [toTable_get_low, h1]
  · rw [toTable_get_high, h2]
  · rw [toTable_get_center, h3]
  · exact toTable_get _ _ _ _ scaled_n (n_mem_countNames _ _) h4
  · exact toTable_get _ _ _ _ scaled_nw (nw_mem_countNames _ _) h5
  · intro hp hc p hpm
    obtain ⟨a, b⟩ := h6 hp hc p hpm
    cases hp
    refine ⟨toTable_get _ _ _ _ (scaled_prefix _) (particle_mem_countNames _ _ hpm).1 a,
      toTable_get _ _ _ _ ?_ (particle_mem_countNames _ _ hpm).2 b⟩
    rw [String.append_assoc]; exact scaled_prefix _

/-- The events in the ring. -/
noncomputable def ring (events : List BgEvent) (lo hi : FV ℝ) : List BgEvent :=
  events.filter (fun e => FV.ge e.offset lo && FV.lt e.offset hi)

/-- The scale factors of the bins. -/
noncomputable def ratios (bins : List (FV ℝ)) (thetaCuts : List (FV ℝ × FV ℝ)) (lo hi : FV ℝ) : List (FV ℝ) :=
  (binCenter bins).map fun c => coneSolidAngleF (Np.interp thetaCuts c) / (coneSolidAngleF hi - coneSolidAngleF lo)

/-- `estimate_background` in terms of the histogram of the ring events. -/
theorem estimateBackground_ok {bins : List (FV ℝ)} {hasWeight hasParticle : Bool} {events : List BgEvent}
    {thetaCuts : List (FV ℝ × FV ℝ)} {alpha lo hi : FV ℝ} {T : Table (FV ℝ)}
    (hT : histTable hasWeight hasParticle ((ring events lo hi).map BgEvent.toEvent) bins = .ok T) :
    ∃ out, estimateBackground hasWeight hasParticle events bins thetaCuts alpha lo hi = .ok out ∧
      out.names = T.names ∧
      ∀ name col, T.get name = .ok col → out.get name = .ok
        (if scaled name then List.zipWith (fun x r => x * r / alpha) col (ratios bins thetaCuts lo hi) else col) := by
  have hun : estimateBackground hasWeight hasParticle events bins thetaCuts alpha lo hi = .ok
      ⟨T.cols.map fun c => (c.1, if scaled c.1 then List.zipWith (fun x r => x * r / alpha) c.2
        (ratios bins thetaCuts lo hi) else c.2)⟩ := by
    unfold estimateBackground
    unfold ring at hT
    simp only [hT, bind, Except.bind, pure, Except.pure]
    congr 2
    apply List.map_congr_left
    intro c _
    unfold ratios
    simp only [List.map_map]
    split <;> rfl
  refine ⟨_, hun, ?_, ?_⟩
  · unfold Table.names
    rw [List.map_map]
    rfl
  · intro name col hcol
    exact get_map_cols T (fun n c => if scaled n then List.zipWith (fun x r => x * r / alpha) c (ratios bins thetaCuts lo hi) else c)
      name col hcol

end Pyirf.Sensitivity
