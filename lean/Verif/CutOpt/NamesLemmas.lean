import Verif.CutOpt.ReapplyProps

/-! # The column names of a scanned sensitivity table -/
set_option linter.unusedSectionVars false
set_option linter.unusedSimpArgs false

namespace Pyirf.CutOpt
open Pyirf Pyirf.Binning Pyirf.Cuts Pyirf.Sensitivity Pyirf.Utils

theorem groupKeys_congr {rows rows' : List (Event ℝ)} (h : ∀ p, p ∈ particles rows ↔ p ∈ particles rows') :
    groupKeys rows = groupKeys rows' := by
  unfold groupKeys
  apply List.Perm.eq_of_pairwise' (r := (· ≤ ·))
  · exact List.pairwise_insertionSort _ _
  · exact List.pairwise_insertionSort _ _
  · refine ((List.perm_insertionSort _ _).trans ?_).trans (List.perm_insertionSort _ _).symm
    rw [List.perm_ext_iff_of_nodup (List.nodup_dedup _) (List.nodup_dedup _)]
    intro p
    rw [List.mem_dedup, List.mem_dedup]
    exact h p

theorem countNames_congr (hp : Bool) {rows rows' : List (Event ℝ)} (h : hp = true → ∀ p, p ∈ particles rows ↔ p ∈ particles rows') :
    countNames hp rows = countNames hp rows' := by
  unfold countNames
  cases hp with
  | false => rfl
  | true =>
    have h := h rfl
    have hl : (0 < rows.length) ↔ (0 < rows'.length) := by
      rw [List.length_pos_iff_exists_mem, List.length_pos_iff_exists_mem]
      constructor
      · rintro ⟨e, he⟩
        obtain ⟨e', he', -⟩ := List.mem_map.mp ((h e.particle).mp (List.mem_map.mpr ⟨e, he, rfl⟩))
        exact ⟨e', he'⟩
      · rintro ⟨e, he⟩
        obtain ⟨e', he', -⟩ := List.mem_map.mp ((h e.particle).mpr (List.mem_map.mpr ⟨e, he, rfl⟩))
        exact ⟨e', he'⟩
    rw [groupKeys_congr h, decide_eq_decide.mpr hl]

theorem particleCols_isSome (edges : List (FV ℝ)) (t t' : EventTable ℝ) (c c' : Cols ℝ) (ps : List String)
    (h : ∀ s, (c s).isSome = (c' s).isSome) :
    ∀ s, (particleCols edges t c ps s).isSome = (particleCols edges t' c' ps s).isSome := by
  induction ps generalizing c c' with
  | nil => exact h
  | cons p ps ih =>
    apply ih
    intro s
    simp only [Cols.set]
    split
    · rfl
    · split
      · rfl
      · exact h s

theorem filterMap_fst (names : List String) (f : String → Option (List ℝ)) :
    (names.filterMap (fun n => (f n).map (fun c => (n, c.map FV.fin)))).map Prod.fst = names.filter fun n => (f n).isSome := by
  induction names with
  | nil => rfl
  | cons a l ih =>
    rw [List.filterMap_cons, List.filter_cons]
    cases f a <;> simp [ih]

/-- histograms with the same particle types have the same columns -/
theorem histTable_names_congr {edges : List (FV ℝ)} (h : Increasing edges) (hw hp : Bool) {rows rows' : List (Event ℝ)}
    (hr : hp = true → ∀ p, p ∈ particles rows ↔ p ∈ particles rows') {T T' : Table (FV ℝ)} (hT : histTable hw hp rows edges = .ok T)
    (hT' : histTable hw hp rows' edges = .ok T') : T.names = T'.names := by
  unfold histTable at hT hT'
  rw [createHistogramTable_ok h] at hT hT'
  simp only [Except.ok.injEq] at hT hT'
  subst hT; subst hT'
  have hk : (if hp then groupKeys rows else []) = (if hp then groupKeys rows' else []) := by
    cases hp with
    | false => rfl
    | true => simp only [if_true]; exact groupKeys_congr (hr rfl)
  unfold Table.names toTable
  rw [List.map_append, List.map_append, filterMap_fst, filterMap_fst, countNames_congr hp hr]
  congr 1
  apply List.filter_congr
  intro s _
  simp only [hk]
  apply particleCols_isSome
  intro s
  simp only [Cols.set]
  split
  · rfl
  · split <;> rfl

theorem set_names {t t' : Table (FV ℝ)} (name : String) (col col' : List (FV ℝ)) (h : t.names = t'.names) :
    (t.set name col).names = (t'.set name col').names := by
  rw [Table.names_set, Table.names_set, h]

theorem fold_names (l l' : List (String × List (FV ℝ))) (t t' : Table (FV ℝ)) (h : t.names = t'.names)
    (hl : l.map Prod.fst = l'.map Prod.fst) :
    (l.foldl (fun t c => t.set c.1 c.2) t).names = (l'.foldl (fun t c => t.set c.1 c.2) t').names := by
  induction l generalizing l' t t' with
  | nil =>
    have : l' = [] := by simpa using hl.symm
    subst this; exact h
  | cons a l ih =>
    cases l' with
    | nil => simp at hl
    | cons a' l' =>
      simp only [List.map_cons, List.cons.injEq] at hl
      rw [List.foldl_cons, List.foldl_cons]
      refine ih _ _ _ ?_ hl.2
      rw [Table.names_set, Table.names_set, h, hl.1]

theorem filter_names {t t' : Table (FV ℝ)} (h : t.names = t'.names) (f : String → Bool) :
    (t.cols.filter (fun d => f d.1)).map Prod.fst = (t'.cols.filter (fun d => f d.1)).map Prod.fst := by
  have : ∀ u : Table (FV ℝ), (u.cols.filter (fun d => f d.1)).map Prod.fst = u.names.filter f := by
    intro u
    unfold Table.names
    rw [List.filter_map]; rfl
  rw [this, this, h]

/-- the columns of a sensitivity table follow from those of the background histogram -/
theorem calc_names {brentq : RootFn} {sig : SigFn} {s s' b b' : Table (FV ℝ)} {alpha : FV ℝ} {th : Thresholds} {T T' : Table (FV ℝ)}
    (h : calculateSensitivity brentq sig s b alpha th = .ok T) (h' : calculateSensitivity brentq sig s' b' alpha th = .ok T')
    (hn : b.names = b'.names) : T.names = T'.names := by
  unfold calculateSensitivity at h h'
  simp only [bind, Except.bind] at h h'
  repeat' split at h
  all_goals first | exact absurd h (by simp) | skip
  repeat' split at h'
  all_goals first | exact absurd h' (by simp) | skip
  cases h; cases h'
  exact set_names _ _ _ (set_names _ _ _ (fold_names _ _ _ _ rfl (filter_names hn copied)))

/-- the particle types that a selection of the background leaves in the ring -/
theorem mem_particles_ring (c : Ctx) (P : Ev → Bool) (p : String) :
    p ∈ particles (((((select c.background.rows (c.background.rows.map P)).map Ev.toBg)).filter
      (fun e => FV.ge e.offset c.offMin && FV.lt e.offset c.offMax)).map BgEvent.toEvent) ↔
    ∃ e ∈ c.background.rows, P e = true ∧ FV.ge e.offset c.offMin = true ∧ FV.lt e.offset c.offMax = true ∧ e.particle = p := by
  rw [select_map]
  unfold particles
  simp only [List.mem_map, List.mem_filter, Bool.and_eq_true]
  constructor
  · rintro ⟨_, ⟨_, ⟨⟨e, ⟨h1, h2⟩, rfl⟩, h3, h4⟩, rfl⟩, rfl⟩
    exact ⟨e, h1, h2, h3, h4, rfl⟩
  · rintro ⟨e, h1, h2, h3, h4, rfl⟩
    exact ⟨_, ⟨_, ⟨⟨e, ⟨h1, h2⟩, rfl⟩, h3, h4⟩, rfl⟩, rfl⟩

/-- scanned tables have the same columns if the same particle types are left in the ring -/
theorem sensitivityOf_names {c : Ctx} (hinc : Increasing c.bins) {sel sel' : List Bool} {P P' : Ev → Bool} {t t' : CutTable ℝ (FV ℝ)}
    {T T' : Table (FV ℝ)} (h : sensitivityOf c sel (c.background.rows.map P) t = .ok T)
    (h' : sensitivityOf c sel' (c.background.rows.map P') t' = .ok T')
    (hp : c.background.hasParticle = true → ∀ p,
      (∃ e ∈ c.background.rows, P e = true ∧ FV.ge e.offset c.offMin = true ∧ FV.lt e.offset c.offMax = true ∧ e.particle = p) ↔
      ∃ e ∈ c.background.rows, P' e = true ∧ FV.ge e.offset c.offMin = true ∧ FV.lt e.offset c.offMax = true ∧ e.particle = p) :
    T.names = T'.names := by
  unfold sensitivityOf at h h'
  split at h
  · exact absurd h (by simp)
  split at h
  · exact absurd h (by simp)
  rename_i bh hbh
  split at h'
  · exact absurd h' (by simp)
  split at h'
  · exact absurd h' (by simp)
  rename_i bh' hbh'
  refine calc_names h h' ?_
  unfold estimateBackground at hbh hbh'
  simp only [bind, Except.bind] at hbh hbh'
  split at hbh
  · exact absurd hbh (by simp)
  rename_i H hH
  split at hbh'
  · exact absurd hbh' (by simp)
  rename_i H' hH'
  cases hbh; cases hbh'
  have hn := histTable_names_congr hinc _ _ (fun h0 p => by
    rw [mem_particles_ring, mem_particles_ring]; exact hp h0 p) hH hH'
  have key : ∀ (U : Table (FV ℝ)) (f : String → List (FV ℝ) → List (FV ℝ)),
      (⟨U.cols.map fun d => if scaled d.1 then (d.1, f d.1 d.2) else d⟩ : Table (FV ℝ)).names = U.names := by
    intro U f
    unfold Table.names
    rw [List.map_map]
    apply List.map_congr_left
    intro d _
    simp only [Function.comp]
    split <;> rfl
  exact (key H (fun _ d => List.zipWith _ d _)).trans (hn.trans (key H' (fun _ d => List.zipWith _ d _)).symm)

end Pyirf.CutOpt
