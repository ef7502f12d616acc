import Verif.Binning.Props

/-!
# Histogram tables: specification vocabulary and lemmas for C05, C06
-/
set_option linter.unusedSectionVars false
set_option linter.unusedSimpArgs false

namespace Pyirf.Binning
open Pyirf
variable {K : Type*} [Field K] [LinearOrder K] [IsStrictOrderedRing K]

/-! ## Specification -/

/-- Sum of `g e` over the events that satisfy `P`. -/
def sumOver (evs : List (Event K)) (P : Event K → Prop) [DecidablePred P] (g : Event K → K) : K :=
  ((evs.filter (fun e => decide (P e))).map g).sum

/-- The particle types that occur in a table. -/
def particles (evs : List (Event K)) : List String := evs.map Event.particle

/-- No particle type is named `weighted` or is another type's name followed by `_weighted`; otherwise
column names collide. -/
def NoClash (evs : List (Event K)) : Prop :=
  ∀ p ∈ particles evs, p ≠ "weighted" ∧ ∀ q ∈ particles evs, p ≠ q ++ "_weighted"

/-- The weight the histogram uses: the weight column, or 1 without one. -/
def effWeight (t : EventTable K) (e : Event K) : K := if t.hasWeight then e.weight else 1

/-! ## Lemmas -/

theorem wsum_map (evs : List (Event K)) (g : Event K → K) (p : FV K → Prop) [DecidablePred p] :
    Np.wsum (fun x => decide (p x)) (evs.map fun e => (e.key, g e)) = sumOver evs (fun e => p e.key) g := by
  unfold Np.wsum sumOver
  rw [List.filter_map, List.map_map]
  rfl

/-- The histogram column of the events `evs` with weights `g`. -/
def column (edges : List (FV K)) (evs : List (Event K)) (g : Event K → K) : List K :=
  (List.range (edges.length - 1)).map fun i => sumOver evs (fun e => InHistBin edges i e.key) g

theorem histogram_events {edges : List (FV K)} (h : Increasing edges) (evs : List (Event K)) (g : Event K → K) :
    Np.histogram edges (evs.map fun e => (e.key, g e)) = .ok (column edges evs g) := by
  rw [histogram_increasing h]
  unfold column
  simp only [wsum_map]

theorem length_column (edges : List (FV K)) (evs : List (Event K)) (g : Event K → K) :
    (column edges evs g).length = edges.length - 1 := by simp [column]

/-- The columns after the particle loop. -/
def particleCols (edges : List (FV K)) (t : EventTable K) (c : Cols K) (ps : List String) : Cols K :=
  ps.foldl (fun c p =>
    (c.set ("n_" ++ p) (column edges (t.rows.filter (fun e => e.particle = p)) (fun _ => 1))).set
      ("n_" ++ p ++ "_weighted") (column edges (t.rows.filter (fun e => e.particle = p)) (effWeight t))) c

theorem addParticle_ok {edges : List (FV K)} (h : Increasing edges) (t : EventTable K) (c : Cols K) (p : String) :
    addParticle edges t.hasWeight t.rows c p = .ok
      ((c.set ("n_" ++ p) (column edges (t.rows.filter (fun e => e.particle = p)) (fun _ => 1))).set
        ("n_" ++ p ++ "_weighted") (column edges (t.rows.filter (fun e => e.particle = p)) (effWeight t))) := by
  unfold addParticle unitWeights withWeights
  have e1 := histogram_events h (t.rows.filter (fun e => e.particle = p)) (fun _ => 1)
  have e2 := histogram_events h (t.rows.filter (fun e => e.particle = p)) (fun e => e.weight)
  cases hw : t.hasWeight with
  | true =>
    have e3 : effWeight t = fun e => e.weight := by funext e; simp [effWeight, hw]
    simp only [if_true, e1, e2, e3]; rfl
  | false =>
    have e3 : effWeight t = fun _ => 1 := by funext e; simp [effWeight, hw]
    simp only [Bool.false_eq_true, if_false, e1, e3]; rfl

theorem foldlM_ok {α β : Type*} (f : β → α → Except Err β) (g : β → α → β) (l : List α) (b : β)
    (h : ∀ b a, f b a = .ok (g b a)) : l.foldlM f b = .ok (l.foldl g b) := by
  induction l generalizing b with
  | nil => rfl
  | cons a l ih =>
    rw [List.foldlM_cons, h]
    exact ih (g b a)

/-- Closed form of the table the code builds. -/
theorem createHistogramTable_ok {edges : List (FV K)} (h : Increasing edges) (t : EventTable K) :
    createHistogramTable t edges = .ok
      ⟨edges.dropLast, edges.tail, binCenter edges,
        particleCols edges t
          ((Cols.set (fun _ => none) "n" (column edges t.rows (fun _ => 1))).set "n_weighted"
            (column edges t.rows (effWeight t)))
          (if t.hasParticle then groupKeys t.rows else [])⟩ := by
  unfold createHistogramTable unitWeights withWeights
  have e1 := histogram_events h t.rows (fun _ => 1)
  have e2 := histogram_events h t.rows (fun e => e.weight)
  have e4 : ∀ c, List.foldlM (addParticle edges t.hasWeight t.rows) c (groupKeys t.rows)
      = .ok (particleCols edges t c (groupKeys t.rows)) := fun c =>
    foldlM_ok _ _ _ _ (fun c p => addParticle_ok h t c p)
  have e6 : ∀ (c : Cols K), (if (t.hasParticle && decide (0 < t.rows.length)) = true then
        particleCols edges t c (groupKeys t.rows) else c)
      = particleCols edges t c (if t.hasParticle then groupKeys t.rows else []) := by
    intro c
    cases hp : t.hasParticle with
    | false => simp [particleCols]
    | true =>
      cases hr : t.rows with
      | nil => simp [particleCols, groupKeys]
      | cons a l => simp
  rw [e1]
  cases hw : t.hasWeight with
  | true =>
    have e3 : effWeight t = fun e => e.weight := by funext e; simp [effWeight, hw]
    simp only [if_true, e2, e3, bind, Except.bind]
    rw [hw] at e4
    simp only [e4]
    rw [← e6]
    split <;> rfl
  | false =>
    have e3 : effWeight t = fun _ => 1 := by funext e; simp [effWeight, hw]
    simp only [Bool.false_eq_true, if_false, e3, bind, Except.bind]
    rw [hw] at e4
    simp only [e4, pure, Except.pure]
    rw [← e6]
    split <;> rfl

theorem mem_groupKeys (evs : List (Event K)) (p : String) : p ∈ groupKeys evs ↔ p ∈ particles evs := by
  unfold groupKeys particles
  rw [List.mem_insertionSort, List.mem_dedup]

theorem nodup_groupKeys (evs : List (Event K)) : (groupKeys evs).Nodup := by
  unfold groupKeys
  rw [(List.perm_insertionSort _ _).nodup_iff]
  exact List.nodup_dedup _

theorem particleCols_other (edges : List (FV K)) (t : EventTable K) (c : Cols K) (ps : List String) (s : String)
    (h : ∀ p ∈ ps, s ≠ "n_" ++ p ∧ s ≠ "n_" ++ p ++ "_weighted") : particleCols edges t c ps s = c s := by
  induction ps generalizing c with
  | nil => rfl
  | cons p ps ih =>
    have hp := h p (by simp)
    show particleCols edges t _ ps s = c s
    rw [ih _ (fun q hq => h q (by simp [hq]))]
    simp [Cols.set, hp.1, hp.2]

theorem prefix_inj {p q : String} : "n_" ++ p = "n_" ++ q ↔ p = q := String.append_right_inj _

theorem prefix_suffix_ne {p q : String} : "n_" ++ p = "n_" ++ q ++ "_weighted" ↔ p = q ++ "_weighted" := by
  rw [String.append_assoc, String.append_right_inj]

theorem suffix_inj {p q : String} : "n_" ++ p ++ "_weighted" = "n_" ++ q ++ "_weighted" ↔ p = q := by
  rw [String.append_left_inj, String.append_right_inj]

theorem ne_suffix (p : String) : p ≠ p ++ "_weighted" := by
  intro h
  have := congrArg String.length h
  simp [String.length_append] at this

theorem particleCols_mem (edges : List (FV K)) (t : EventTable K) (c : Cols K) (ps : List String)
    (hnd : ps.Nodup) (hclash : ∀ p ∈ ps, ∀ q ∈ ps, p ≠ q ++ "_weighted") (p : String) (hp : p ∈ ps) :
    particleCols edges t c ps ("n_" ++ p)
      = some (column edges (t.rows.filter (fun e => e.particle = p)) (fun _ => 1)) ∧
    particleCols edges t c ps ("n_" ++ p ++ "_weighted")
      = some (column edges (t.rows.filter (fun e => e.particle = p)) (effWeight t)) := by
  induction ps generalizing c with
  | nil => simp at hp
  | cons q ps ih =>
    have hnd' := List.nodup_cons.mp hnd
    by_cases hpq : p = q
    · subst hpq
      constructor
      · show particleCols edges t _ ps _ = _
        rw [particleCols_other]
        · simp only [Cols.set]
          have : ¬ ("n_" ++ p = "n_" ++ p ++ "_weighted") := by
            rw [prefix_suffix_ne]; exact ne_suffix p
          simp [this]
        · intro r hr
          rw [Ne, prefix_inj, Ne, prefix_suffix_ne]
          exact ⟨fun h => hnd'.1 (h ▸ hr), hclash p (by simp) r (by simp [hr])⟩
      · show particleCols edges t _ ps _ = _
        rw [particleCols_other]
        · simp [Cols.set]
        · intro r hr
          constructor
          · intro h
            exact hclash r (by simp [hr]) p (by simp) (prefix_suffix_ne.mp h.symm)
          · rw [Ne, suffix_inj]
            exact fun h => hnd'.1 (h ▸ hr)
    · have hp' : p ∈ ps := by simpa [hpq] using hp
      exact ih _ hnd'.2 (fun a ha b hb => hclash a (by simp [ha]) b (by simp [hb])) hp'

theorem sumOver_nil (P : Event K → Prop) [DecidablePred P] (g : Event K → K) : sumOver [] P g = 0 := by
  simp [sumOver]

theorem sumOver_cons (e : Event K) (evs : List (Event K)) (P : Event K → Prop) [DecidablePred P]
    (g : Event K → K) : sumOver (e :: evs) P g = (if P e then g e else 0) + sumOver evs P g := by
  unfold sumOver
  by_cases h : P e <;> simp [h]

theorem sumOver_append (e1 e2 : List (Event K)) (P : Event K → Prop) [DecidablePred P] (g : Event K → K) :
    sumOver (e1 ++ e2) P g = sumOver e1 P g + sumOver e2 P g := by
  simp [sumOver]

theorem sumOver_filter (evs : List (Event K)) (P Q : Event K → Prop) [DecidablePred P] [DecidablePred Q]
    (g : Event K → K) :
    sumOver (evs.filter (fun e => decide (Q e))) P g = sumOver evs (fun e => Q e ∧ P e) g := by
  unfold sumOver
  rw [List.filter_filter]
  congr 2
  apply List.filter_congr
  intro e _
  by_cases hq : Q e <;> by_cases hp : P e <;> simp [hq, hp]

/-- Splitting a sum over the distinct values of a label. -/
theorem sum_by_particle (evs : List (Event K)) (P : Event K → Prop) [DecidablePred P] (g : Event K → K)
    (ps : List String) (hnd : ps.Nodup) (hall : ∀ e ∈ evs, e.particle ∈ ps) :
    (ps.map fun p => sumOver evs (fun e => e.particle = p ∧ P e) g).sum = sumOver evs P g := by
  induction evs with
  | nil => simp [sumOver_nil]
  | cons e evs ih =>
    have ih' := ih (fun e he => hall e (by simp [he]))
    simp only [sumOver_cons]
    rw [List.sum_map_add, ih']
    congr 1
    have hmem := hall e (by simp)
    clear ih ih' hall
    induction ps with
    | nil => simp at hmem
    | cons q ps ihp =>
      have hnd' := List.nodup_cons.mp hnd
      rw [List.map_cons, List.sum_cons]
      by_cases hq : e.particle = q
      · have : (ps.map fun p => if e.particle = p ∧ P e then g e else 0).sum = 0 := by
          apply List.sum_eq_zero
          intro x hx
          obtain ⟨p, hp, rfl⟩ := List.mem_map.mp hx
          have : ¬ (e.particle = p) := by rintro rfl; exact hnd'.1 (hq ▸ hp)
          simp [this]
        rw [this]; simp [hq]
      · have hm : e.particle ∈ ps := by simpa [hq] using hmem
        rw [ihp hnd'.2 hm]; simp [hq]

theorem sum_column {edges : List (FV K)} (h : Increasing edges) (hl : 2 ≤ edges.length) (evs : List (Event K))
    (g : Event K → K) : (column edges evs g).sum = sumOver evs (fun e => InRange edges e.key) g := by
  have := sum_hist h hl (evs.map fun e => (e.key, g e))
  simp only [wsum_map] at this
  exact this

end Pyirf.Binning
