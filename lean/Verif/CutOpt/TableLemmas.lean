import Verif.CutOpt.Lemmas

/-! # The table that one scan step computes -/
set_option linter.unusedSectionVars false
set_option linter.unusedSimpArgs false

namespace Pyirf.CutOpt
open Pyirf Pyirf.Binning Pyirf.Cuts Pyirf.Sensitivity Pyirf.Utils

theorem rect_set {t : Table (FV ℝ)} {n : ℕ} (h : Rect t n) (name : String) (col : List (FV ℝ)) (hc : col.length = n) :
    Rect (t.set name col) n := by
  unfold Table.set
  split
  · intro c hm
    simp only [List.mem_map] at hm
    obtain ⟨d, hd, rfl⟩ := hm
    split
    · exact hc
    · exact h d hd
  · intro c hm
    simp only [List.mem_append, List.mem_singleton] at hm
    rcases hm with hm | rfl
    · exact h c hm
    · exact hc

theorem mem_names_set {t : Table (FV ℝ)} {name s : String} {col : List (FV ℝ)} :
    s ∈ (t.set name col).names ↔ s ∈ t.names ∨ s = name := by
  rw [Table.names_set]
  split
  · rename_i h
    constructor
    · exact Or.inl
    · rintro (h1 | rfl)
      · exact h1
      · exact h
  · simp

theorem fold_set_names (l : List (String × List (FV ℝ))) (t : Table (FV ℝ)) (s : String) :
    s ∈ (l.foldl (fun t c => t.set c.1 c.2) t).names ↔ s ∈ t.names ∨ s ∈ l.map Prod.fst := by
  induction l generalizing t with
  | nil => simp
  | cons c l ih =>
    rw [List.foldl_cons, ih, mem_names_set]
    simp [or_assoc]

theorem rect_fold (l : List (String × List (FV ℝ))) (t : Table (FV ℝ)) (n : ℕ) (h : Rect t n)
    (hl : ∀ c ∈ l, c.2.length = n) : Rect (l.foldl (fun t c => t.set c.1 c.2) t) n := by
  induction l generalizing t with
  | nil => exact h
  | cons c l ih =>
    rw [List.foldl_cons]
    exact ih _ (rect_set h _ _ (hl c (by simp))) (fun c hc => hl c (by simp [hc]))

theorem get_of_mem {t : Table (FV ℝ)} {name : String} (h : name ∈ t.names) :
    ∃ col, t.get name = .ok col ∧ (name, col) ∈ t.cols := by
  have : ∃ col, t.get name = .ok col := by
    unfold Table.get
    cases hf : t.cols.find? (fun c => decide (c.1 = name)) with
    | none =>
      rw [List.find?_eq_none] at hf
      obtain ⟨c, hc, hce⟩ := List.mem_map.mp h
      exact absurd hce (by simpa using hf c hc)
    | some c => exact ⟨c.2, rfl⟩
  obtain ⟨col, hcol⟩ := this
  exact ⟨col, hcol, get_mem hcol⟩

theorem particleCols_rect (edges : List (FV ℝ)) (t : EventTable ℝ) (c : Cols ℝ) (ps : List String)
    (h : ∀ s col, c s = some col → col.length = edges.length - 1) :
    ∀ s col, particleCols edges t c ps s = some col → col.length = edges.length - 1 := by
  induction ps generalizing c with
  | nil => exact h
  | cons p ps ih =>
    apply ih
    intro s col hs
    simp only [Cols.set] at hs
    split at hs
    · cases hs; exact length_column _ _ _
    · split at hs
      · cases hs; exact length_column _ _ _
      · exact h s col hs

theorem length_binCenter (edges : List (FV ℝ)) : (binCenter edges).length = edges.length - 1 := by
  simp [binCenter]

theorem histTable_rect {edges : List (FV ℝ)} (h : Increasing edges) (hw hp : Bool) (rows : List (Event ℝ)) (T : Table (FV ℝ))
    (hT : histTable hw hp rows edges = .ok T) : Rect T (edges.length - 1) := by
  unfold histTable at hT
  rw [createHistogramTable_ok h] at hT
  simp only [Except.ok.injEq] at hT
  subst hT
  intro c hc
  unfold toTable at hc
  simp only [List.mem_append, List.mem_cons, List.not_mem_nil, or_false, List.mem_filterMap, Option.map_eq_some_iff] at hc
  rcases hc with (rfl | rfl | rfl) | ⟨s, -, col, hcol, rfl⟩
  · simp
  · simp
  · exact length_binCenter _
  · simp only [List.length_map]
    refine particleCols_rect edges _ _ _ ?_ s col hcol
    intro s col hs
    simp only [Cols.set] at hs
    split at hs
    · cases hs; exact length_column _ _ _
    · split at hs
      · cases hs; exact length_column _ _ _
      · exact absurd hs (by simp)

/-- the weight the histogram uses -/
def evWeight (hasWeight : Bool) (e : Ev) : ℝ := if hasWeight then e.weight else 1

section
variable (c : Ctx) (E : List (FV ℝ))

open Classical in
/-- weighted signal in bin `i` -/
noncomputable def sigSum (sel : List Bool) (i : ℕ) : ℝ :=
  (((select c.signal.rows sel).filter (fun e => decide (InHistBin E i e.energy))).map
    (evWeight c.signal.hasWeight)).sum

open Classical in
/-- weighted background in bin `i` of the ring -/
noncomputable def bgSum (sel : List Bool) (i : ℕ) : ℝ :=
  (((select c.background.rows sel).filter (fun e => decide ((FV.ge e.offset c.offMin && FV.lt e.offset c.offMax) = true ∧
    InHistBin E i e.energy))).map (evWeight c.background.hasWeight)).sum

/-- background estimate in bin `i` -/
noncomputable def bgEst (sel : List Bool) (nodes : List (FV ℝ × FV ℝ)) (i : ℕ) (center : FV ℝ) : FV ℝ :=
  .fin (bgSum c E sel i) * (coneSolidAngleF (Np.interp nodes center) / (coneSolidAngleF c.offMax - coneSolidAngleF c.offMin))
    / c.alpha
end

theorem sumOver_sel (hw : Bool) (rows : List Ev) (E : List (FV ℝ)) (i : ℕ) :
    sumOver (rows.map Ev.toEvent) (fun e => InHistBin E i e.key) (fun e => if hw then e.weight else 1) =
      by classical exact ((rows.filter (fun e => decide (InHistBin E i e.energy))).map (evWeight hw)).sum := by
  classical
  unfold sumOver
  rw [List.filter_map, List.map_map]
  congr 1

theorem sumOver_ring_sel (hw : Bool) (rows : List Ev) (E : List (FV ℝ)) (i : ℕ) (lo hi : FV ℝ) :
    sumOver ((ring (rows.map Ev.toBg) lo hi).map BgEvent.toEvent) (fun e => InHistBin E i e.key)
        (fun e => if hw then e.weight else 1) =
      by classical exact ((rows.filter (fun e => decide ((FV.ge e.offset lo && FV.lt e.offset hi) = true ∧
        InHistBin E i e.energy))).map (evWeight hw)).sum := by
  classical
  unfold sumOver ring
  rw [List.filter_map, List.map_map, List.filter_map, List.filter_map, List.filter_filter, List.map_map]
  congr 1
  have hf : ∀ e : Ev, (((((fun e : Event ℝ => decide (InHistBin E i e.key)) ∘ BgEvent.toEvent) ∘ Ev.toBg) e) &&
      ((fun e : BgEvent => FV.ge e.offset lo && FV.lt e.offset hi) ∘ Ev.toBg) e) =
      decide ((FV.ge e.offset lo && FV.lt e.offset hi) = true ∧ InHistBin E i e.energy) := by
    intro e
    apply Bool.eq_iff_iff.mpr
    simp only [Function.comp]
    rw [Bool.and_eq_true, dec_iff, dec_iff]
    exact And.comm
  rw [List.filter_congr (fun e _ => hf e)]
  rfl

end Pyirf.CutOpt
