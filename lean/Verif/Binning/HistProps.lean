import Verif.Binning.HistLemmas

/-!
# Properties C05, C06: histogram tables

Vocabulary: `sumOver evs P g` (sum of `g` over the events with `P`), `effWeight` (the weight column or 1),
`NoClash` (particle names cannot collide with the column names the table builds), `InHistBin`/`InRange`
(bins/closed range of the edges).
-/
set_option linter.unusedSectionVars false
set_option linter.unusedSimpArgs false

namespace Pyirf.Binning
open Pyirf
variable {K : Type*} [Field K] [LinearOrder K] [IsStrictOrderedRing K]

/-- Cell `i` of column `name` of a histogram table (0 if the column does not exist). -/
def HistTable.cell (t : HistTable K) (name : String) (i : ℕ) : K := ((t.cols name).getD []).getD i 0

/-- Sum of a column of a histogram table (0 if the column does not exist). -/
def HistTable.colSum (t : HistTable K) (name : String) : K := ((t.cols name).getD []).sum

/-- Number of events with property `P`. -/
def countEvents (evs : List (Event K)) (P : Event K → Prop) [DecidablePred P] : ℕ :=
  (evs.filter (fun e => decide (P e))).length

theorem sumOver_one (evs : List (Event K)) (P : Event K → Prop) [DecidablePred P] :
    sumOver evs P (fun _ => 1) = (countEvents evs P : K) := by
  unfold sumOver countEvents
  simp

theorem getD_column (edges : List (FV K)) (evs : List (Event K)) (g : Event K → K) (i : ℕ)
    (hi : i + 1 < edges.length) :
    (column edges evs g).getD i 0 = sumOver evs (fun e => InHistBin edges i e.key) g := by
  have : i < (column edges evs g).length := by rw [length_column]; omega
  rw [List.getD_eq_getElem?_getD, List.getElem?_eq_getElem this]
  simp [column]

/-- **C05** The table of any event list on increasing edges (at least one bin), when no particle name
collides with a column name: bin `i` of `n` is the number of events in bin `i`, of `n_weighted` the sum of
their weights; the columns add up to the number/weight of all events in the closed range of the edges; the
per-particle columns hold the same for the events of that type and add up, in every row, to `n` and
`n_weighted`; without weights `n_weighted` equals `n`. -/
theorem C05_histogram_table (t : EventTable K) (edges : List (FV K)) (h : Increasing edges)
    (hl : 2 ≤ edges.length) (hc : t.hasParticle = true → NoClash t.rows) :
    ∃ tab, createHistogramTable t edges = .ok tab ∧
      tab.low = edges.dropLast ∧ tab.high = edges.tail ∧
      (∃ n w, tab.cols "n" = some n ∧ tab.cols "n_weighted" = some w ∧
        n.length = edges.length - 1 ∧ w.length = edges.length - 1 ∧ (t.hasWeight = false → w = n)) ∧
      (∀ i, i + 1 < edges.length →
        tab.cell "n" i = countEvents t.rows (fun e => InHistBin edges i e.key) ∧
        tab.cell "n_weighted" i = sumOver t.rows (fun e => InHistBin edges i e.key) (effWeight t)) ∧
      tab.colSum "n" = countEvents t.rows (fun e => InRange edges e.key) ∧
      tab.colSum "n_weighted" = sumOver t.rows (fun e => InRange edges e.key) (effWeight t) ∧
      (t.hasParticle = true → ∀ i, i + 1 < edges.length →
        (∀ p ∈ particles t.rows,
          tab.cell ("n_" ++ p) i = countEvents t.rows (fun e => e.particle = p ∧ InHistBin edges i e.key) ∧
          tab.cell ("n_" ++ p ++ "_weighted") i
            = sumOver t.rows (fun e => e.particle = p ∧ InHistBin edges i e.key) (effWeight t)) ∧
        ((particles t.rows).dedup.map fun p => tab.cell ("n_" ++ p) i).sum = tab.cell "n" i ∧
        ((particles t.rows).dedup.map fun p => tab.cell ("n_" ++ p ++ "_weighted") i).sum
          = tab.cell "n_weighted" i) := by
  refine ⟨_, createHistogramTable_ok h t, rfl, rfl, ?_⟩
  set c2 : Cols K := (Cols.set (fun _ => none) "n" (column edges t.rows (fun _ => 1))).set "n_weighted"
            (column edges t.rows (effWeight t)) with hc2
  set ps : List String := (if t.hasParticle then groupKeys t.rows else []) with hps
  have hps' : ∀ p ∈ ps, t.hasParticle = true ∧ p ∈ particles t.rows := by
    intro p hp
    rw [hps] at hp
    split at hp
    · rename_i hh; exact ⟨hh, (mem_groupKeys _ _).mp hp⟩
    · simp at hp
  have hn : particleCols edges t c2 ps "n" = some (column edges t.rows (fun _ => 1)) := by
    rw [particleCols_other]
    · rw [hc2]; simp only [Cols.set]; rw [if_neg (by decide)]; simp
    · intro p _
      constructor
      · intro hh
        have := congrArg String.length hh
        rw [String.length_append, show "n".length = 1 from rfl, show "n_".length = 2 from rfl] at this
        omega
      · intro hh
        have := congrArg String.length hh
        rw [String.length_append, String.length_append, show "n".length = 1 from rfl,
          show "n_".length = 2 from rfl] at this
        omega
  have hnw : particleCols edges t c2 ps "n_weighted" = some (column edges t.rows (effWeight t)) := by
    rw [particleCols_other]
    · rw [hc2]; simp [Cols.set]
    · intro p hp
      obtain ⟨h1, h2⟩ := hps' p hp
      constructor
      · intro hh
        have h3 : "n_" ++ "weighted" = "n_" ++ p := hh
        exact (hc h1 p h2).1 (prefix_inj.mp h3).symm
      · intro hh
        have h4 : "weighted" = p ++ "_weighted" := prefix_suffix_ne.mp hh
        have := congrArg String.length h4
        rw [String.length_append, show "weighted".length = 8 from rfl,
          show "_weighted".length = 9 from rfl] at this
        omega
  refine ⟨⟨_, _, hn, hnw, length_column _ _ _, length_column _ _ _, ?_⟩, ?_, ?_, ?_, ?_⟩
  · intro hw
    have e3 : effWeight t = fun _ => 1 := by funext e; simp [effWeight, hw]
    rw [e3]
  · intro i hi
    simp only [HistTable.cell, hn, hnw, Option.getD_some]
    rw [getD_column _ _ _ _ hi, getD_column _ _ _ _ hi, sumOver_one]
    exact ⟨rfl, rfl⟩
  · simp only [HistTable.colSum, hn, Option.getD_some]
    rw [sum_column h hl, sumOver_one]
  · simp only [HistTable.colSum, hnw, Option.getD_some]
    rw [sum_column h hl]
  · intro hp i hi
    have hps2 : ps = groupKeys t.rows := by rw [hps, if_pos hp]
    have hcl := hc hp
    have hcols := fun p (hpm : p ∈ particles t.rows) => particleCols_mem edges t c2 (groupKeys t.rows)
      (nodup_groupKeys _)
      (fun p hp q hq => (hcl p ((mem_groupKeys _ _).mp hp)).2 q ((mem_groupKeys _ _).mp hq)) p
      ((mem_groupKeys _ _).mpr hpm)
    have hcell : ∀ p ∈ particles t.rows,
        HistTable.cell ⟨edges.dropLast, edges.tail, binCenter edges, particleCols edges t c2 ps⟩ ("n_" ++ p) i
          = sumOver t.rows (fun e => e.particle = p ∧ InHistBin edges i e.key) (fun _ => 1) ∧
        HistTable.cell ⟨edges.dropLast, edges.tail, binCenter edges, particleCols edges t c2 ps⟩
            ("n_" ++ p ++ "_weighted") i
          = sumOver t.rows (fun e => e.particle = p ∧ InHistBin edges i e.key) (effWeight t) := by
      intro p hpm
      have := hcols p hpm
      simp only [HistTable.cell, hps2]
      rw [this.1, this.2]
      simp only [Option.getD_some]
      rw [getD_column _ _ _ _ hi, getD_column _ _ _ _ hi, sumOver_filter, sumOver_filter]
      exact ⟨rfl, rfl⟩
    have hall : ∀ e ∈ t.rows, e.particle ∈ (particles t.rows).dedup := by
      intro e he
      rw [List.mem_dedup]
      exact List.mem_map_of_mem he
    refine ⟨?_, ?_, ?_⟩
    · intro p hpm
      rw [(hcell p hpm).1, (hcell p hpm).2, sumOver_one]
      exact ⟨rfl, rfl⟩
    · rw [List.map_congr_left (fun p hpm => (hcell p (List.mem_dedup.mp hpm)).1)]
      rw [sum_by_particle _ _ _ _ (List.nodup_dedup _) hall]
      simp only [HistTable.cell, hn, Option.getD_some]
      rw [getD_column _ _ _ _ hi]
    · rw [List.map_congr_left (fun p hpm => (hcell p (List.mem_dedup.mp hpm)).2)]
      rw [sum_by_particle _ _ _ _ (List.nodup_dedup _) hall]
      simp only [HistTable.cell, hnw, Option.getD_some]
      rw [getD_column _ _ _ _ hi]

/-- **C05** Each event in the closed range of the edges lies in exactly one bin, any other event in none. -/
theorem C05_exactly_one_bin (edges : List (FV K)) (h : Increasing edges) (hl : 2 ≤ edges.length) (x : FV K) :
    (InRange edges x → ∃! i, InHistBin edges i x) ∧ (¬ InRange edges x → ∀ i, ¬ InHistBin edges i x) := by
  constructor
  · intro hx
    obtain ⟨i, hi⟩ := exists_inHistBin h hl hx
    exact ⟨i, hi, fun j hj => inHistBin_unique h hj hi⟩
  · exact fun hx i hi => hx (hi.inRange h)

theorem histogram_perm (edges : List (FV K)) {xs ys : List (FV K × K)} (h : xs.Perm ys) :
    Np.histogram edges xs = Np.histogram edges ys := by
  have : Np.histCum edges xs = Np.histCum edges ys := by
    unfold Np.histCum
    congr 1
    · exact List.map_congr_left (fun e _ => wsum_perm _ h)
    · exact List.map_congr_left (fun e _ => wsum_perm _ h)
  unfold Np.histogram
  rw [this]

/-- **C05** The table does not depend on the order of the events (for any edges, also when it raises). -/
theorem C05_order_independent (t t' : EventTable K) (edges : List (FV K)) (hw : t.hasWeight = t'.hasWeight)
    (hp : t.hasParticle = t'.hasParticle) (hperm : t.rows.Perm t'.rows) :
    createHistogramTable t edges = createHistogramTable t' edges := by
  have h1 : Np.histogram edges (unitWeights t.rows) = Np.histogram edges (unitWeights t'.rows) :=
    histogram_perm _ (hperm.map _)
  have h2 : Np.histogram edges (withWeights t.rows) = Np.histogram edges (withWeights t'.rows) :=
    histogram_perm _ (hperm.map _)
  have h3 : groupKeys t.rows = groupKeys t'.rows := by
    unfold groupKeys
    apply List.Perm.eq_of_pairwise' (r := (· ≤ ·))
    · exact List.pairwise_insertionSort _ _
    · exact List.pairwise_insertionSort _ _
    · exact ((List.perm_insertionSort _ _).trans (hperm.map _).dedup).trans (List.perm_insertionSort _ _).symm
  have h4 : addParticle edges t.hasWeight t.rows = addParticle edges t'.hasWeight t'.rows := by
    funext c p
    unfold addParticle
    rw [hw]
    have h5 : Np.histogram edges (unitWeights (t.rows.filter (fun e => e.particle = p)))
        = Np.histogram edges (unitWeights (t'.rows.filter (fun e => e.particle = p))) :=
      histogram_perm _ ((hperm.filter _).map _)
    have h6 : Np.histogram edges (withWeights (t.rows.filter (fun e => e.particle = p)))
        = Np.histogram edges (withWeights (t'.rows.filter (fun e => e.particle = p))) :=
      histogram_perm _ ((hperm.filter _).map _)
    simp only [h5, h6]
  unfold createHistogramTable
  rw [h1, h2, h3, h4, hw, hp, hperm.length_eq]

theorem cell_absent (t : EventTable K) (edges : List (FV K)) (h : Increasing edges)
    (tab : HistTable K) (htab : createHistogramTable t edges = .ok tab) (p : String)
    (hp : p ∉ particles t.rows) (hpw : p ≠ "weighted")
    (hq : ∀ q ∈ particles t.rows, p ≠ q ++ "_weighted" ∧ q ≠ p ++ "_weighted") (i : ℕ) :
    tab.cell ("n_" ++ p) i = 0 ∧ tab.cell ("n_" ++ p ++ "_weighted") i = 0 := by
  rw [createHistogramTable_ok h t] at htab
  obtain rfl := Except.ok.inj htab
  have hmem : ∀ q ∈ (if t.hasParticle then groupKeys t.rows else []), q ∈ particles t.rows := by
    intro q hq
    split at hq
    · exact (mem_groupKeys _ _).mp hq
    · simp at hq
  have l1 : "n".length = 1 := rfl
  have l2 : "n_".length = 2 := rfl
  have l3 : "_weighted".length = 9 := rfl
  have l4 : "n_weighted".length = 10 := rfl
  have n1 : "n_" ++ p ≠ "n_weighted" := fun hh => hpw (prefix_inj.mp (show "n_" ++ p = "n_" ++ "weighted" from hh))
  have n2 : "n_" ++ p ≠ "n" := by
    intro hh; have := congrArg String.length hh; rw [String.length_append] at this; omega
  have n3 : "n_" ++ p ++ "_weighted" ≠ "n_weighted" := by
    intro hh; have := congrArg String.length hh; rw [String.length_append, String.length_append] at this; omega
  have n4 : "n_" ++ p ++ "_weighted" ≠ "n" := by
    intro hh; have := congrArg String.length hh; rw [String.length_append, String.length_append] at this; omega
  constructor
  · unfold HistTable.cell
    simp only []
    rw [particleCols_other]
    · simp [Cols.set, n1, n2]
    · intro q hqm
      rw [Ne, prefix_inj, Ne, prefix_suffix_ne]
      exact ⟨fun hh => hp (hh ▸ hmem q hqm), (hq q (hmem q hqm)).1⟩
  · unfold HistTable.cell
    simp only []
    rw [particleCols_other]
    · simp [Cols.set, n3, n4]
    · intro q hqm
      constructor
      · intro hh; exact (hq q (hmem q hqm)).2 (prefix_suffix_ne.mp hh.symm)
      · rw [Ne, suffix_inj]; exact fun hh => hp (hh ▸ hmem q hqm)

/-- **C05** Concatenating two event lists adds the tables: the total columns and every per-particle column
(a type that does not occur counts 0). -/
theorem C05_additive (hasWeight hasParticle : Bool) (r1 r2 : List (Event K)) (edges : List (FV K))
    (h : Increasing edges) (hl : 2 ≤ edges.length) (hc : hasParticle = true → NoClash (r1 ++ r2))
    (t1 t2 t12 : HistTable K)
    (h1 : createHistogramTable ⟨hasWeight, hasParticle, r1⟩ edges = .ok t1)
    (h2 : createHistogramTable ⟨hasWeight, hasParticle, r2⟩ edges = .ok t2)
    (h12 : createHistogramTable ⟨hasWeight, hasParticle, r1 ++ r2⟩ edges = .ok t12)
    (i : ℕ) (hi : i + 1 < edges.length) :
    t12.cell "n" i = t1.cell "n" i + t2.cell "n" i ∧
    t12.cell "n_weighted" i = t1.cell "n_weighted" i + t2.cell "n_weighted" i ∧
    (hasParticle = true → ∀ p ∈ particles (r1 ++ r2),
      t12.cell ("n_" ++ p) i = t1.cell ("n_" ++ p) i + t2.cell ("n_" ++ p) i ∧
      t12.cell ("n_" ++ p ++ "_weighted") i
        = t1.cell ("n_" ++ p ++ "_weighted") i + t2.cell ("n_" ++ p ++ "_weighted") i) := by
  have m1 : ∀ p, p ∈ particles r1 → p ∈ particles (r1 ++ r2) := by
    intro p hp; simp only [particles, List.map_append, List.mem_append] at *; exact Or.inl hp
  have m2 : ∀ p, p ∈ particles r2 → p ∈ particles (r1 ++ r2) := by
    intro p hp; simp only [particles, List.map_append, List.mem_append] at *; exact Or.inr hp
  obtain ⟨s1, e1, -, -, -, f1, -, -, g1⟩ := C05_histogram_table ⟨hasWeight, hasParticle, r1⟩ edges h hl
    (fun hp p hpm => ⟨(hc hp p (m1 p hpm)).1, fun q hq => (hc hp p (m1 p hpm)).2 q (m1 q hq)⟩)
  obtain ⟨s2, e2, -, -, -, f2, -, -, g2⟩ := C05_histogram_table ⟨hasWeight, hasParticle, r2⟩ edges h hl
    (fun hp p hpm => ⟨(hc hp p (m2 p hpm)).1, fun q hq => (hc hp p (m2 p hpm)).2 q (m2 q hq)⟩)
  obtain ⟨s3, e3, -, -, -, f3, -, -, g3⟩ := C05_histogram_table ⟨hasWeight, hasParticle, r1 ++ r2⟩ edges h hl hc
  rw [h1] at e1; rw [h2] at e2; rw [h12] at e3
  obtain rfl := Except.ok.inj e1
  obtain rfl := Except.ok.inj e2
  obtain rfl := Except.ok.inj e3
  have cnt : ∀ (P : Event K → Prop) [DecidablePred P],
      (countEvents (r1 ++ r2) P : K) = countEvents r1 P + countEvents r2 P := by
    intro P _; rw [← sumOver_one, ← sumOver_one, ← sumOver_one, sumOver_append]
  refine ⟨?_, ?_, ?_⟩
  · rw [(f3 i hi).1, (f1 i hi).1, (f2 i hi).1]; exact cnt _
  · rw [(f3 i hi).2, (f1 i hi).2, (f2 i hi).2]; exact sumOver_append _ _ _ _
  · intro hp p hpm
    have a3 := (g3 hp i hi).1 p hpm
    have hcl := hc hp
    have count0 : ∀ (r : List (Event K)) (g : Event K → K), p ∉ particles r →
        sumOver r (fun e => e.particle = p ∧ InHistBin edges i e.key) g = 0 := by
      intro r g hr
      unfold sumOver
      rw [List.filter_eq_nil_iff.mpr]
      · simp
      · intro e he hh
        simp only [decide_eq_true_eq] at hh
        exact hr (List.mem_map.mpr ⟨e, he, hh.1⟩)
    have sub : ∀ (r : List (Event K)) (m : ∀ q, q ∈ particles r → q ∈ particles (r1 ++ r2)) (t : HistTable K),
        createHistogramTable ⟨hasWeight, hasParticle, r⟩ edges = .ok t →
        (p ∈ particles r → t.cell ("n_" ++ p) i
            = countEvents r (fun e => e.particle = p ∧ InHistBin edges i e.key) ∧
          t.cell ("n_" ++ p ++ "_weighted") i = sumOver r (fun e => e.particle = p ∧ InHistBin edges i e.key)
            (effWeight ⟨hasWeight, hasParticle, r⟩)) →
        t.cell ("n_" ++ p) i = countEvents r (fun e => e.particle = p ∧ InHistBin edges i e.key) ∧
          t.cell ("n_" ++ p ++ "_weighted") i = sumOver r (fun e => e.particle = p ∧ InHistBin edges i e.key)
            (effWeight ⟨hasWeight, hasParticle, r⟩) := by
      intro r m t ht hin
      by_cases hr : p ∈ particles r
      · exact hin hr
      · have := cell_absent ⟨hasWeight, hasParticle, r⟩ edges h t ht p hr (hcl p hpm).1
          (fun q hq => ⟨(hcl p hpm).2 q (m q hq), (hcl q (m q hq)).2 p hpm⟩) i
        rw [this.1, this.2, ← sumOver_one, count0 _ _ hr, count0 _ _ hr]
        exact ⟨rfl, rfl⟩
    have a1 := sub r1 m1 t1 h1 ((g1 hp i hi).1 p)
    have a2 := sub r2 m2 t2 h2 ((g2 hp i hi).1 p)
    rw [a1.1, a1.2, a2.1, a2.2, a3.1, a3.2]
    exact ⟨cnt _, sumOver_append _ _ _ _⟩

/-- **C05** (deviation without the naming restriction) A particle type called `weighted` replaces the column
`n_weighted` by its own unweighted counts: here the total weight 7 + 5 is reported as 1. -/
theorem C05_name_clash_breaks_weights :
    ∃ tab, createHistogramTable
        (⟨true, true, [⟨.fin (1/2), 7, "gamma"⟩, ⟨.fin (1/2), 5, "weighted"⟩]⟩ : EventTable ℚ)
        [.fin 0, .fin 1] = .ok tab ∧ tab.colSum "n_weighted" = 1 := by
  refine ⟨_, rfl, ?_⟩
  decide +kernel

/-- The hypotheses of C05 are met by a table with two particle types, events on edges, outside and NaN. -/
example : Increasing ([.fin 0, .fin 1, .fin 2] : List (FV ℚ)) ∧
    NoClash ([⟨.fin 1, 2, "gamma"⟩, ⟨.fin 2, 3, "proton"⟩, ⟨.nan, 1, "gamma"⟩, ⟨.fin 5, 1, "gamma"⟩] :
      List (Event ℚ)) ∧
    ∃ tab, createHistogramTable (⟨true, true, [⟨.fin 1, 2, "gamma"⟩, ⟨.fin 2, 3, "proton"⟩, ⟨.nan, 1, "gamma"⟩,
        ⟨.fin 5, 1, "gamma"⟩]⟩ : EventTable ℚ) [.fin 0, .fin 1, .fin 2] = .ok tab ∧
      tab.cols "n" = some [0, 2] ∧ tab.cols "n_weighted" = some [0, 5] ∧
      tab.cols "n_proton_weighted" = some [0, 3] := by
  refine ⟨⟨by simp, by norm_num [FV.le]⟩, ?_, _, rfl, by decide +kernel, by decide +kernel, by decide +kernel⟩
  intro p hp
  simp [particles] at hp
  rcases hp with rfl | rfl | rfl <;> simp [particles]

/-! ## C06 -/

/-- **C06** An event for which `calculate_bin_indices` gives valid bin `i` is counted by
`create_histogram_table` in bin `i` and in no other; an event that the histogram counts but that is invalid
for the cut sits exactly on the last edge and is counted in the last bin. -/
theorem C06_cut_vs_histogram (edges : List (FV K)) (h : Increasing edges) (hl : 2 ≤ edges.length)
    (ev : Event K) (tab : HistTable K) (htab : createHistogramTable ⟨false, false, [ev]⟩ edges = .ok tab) :
    (∀ i : ℕ, calculateBinIndices false false [ev.key] edges = .ok [((i : ℤ), true)] →
      ∀ j, j + 1 < edges.length → tab.cell "n" j = if j = i then 1 else 0) ∧
    (∀ (i : ℕ) (z : ℤ), i + 1 < edges.length → tab.cell "n" i ≠ 0 →
      calculateBinIndices false false [ev.key] edges = .ok [(z, false)] →
      ev.key = edges[edges.length - 1]'(by omega) ∧ i + 2 = edges.length) := by
  obtain ⟨s1, e1, -, -, -, f1, -⟩ := C05_histogram_table ⟨false, false, [ev]⟩ edges h hl (by simp)
  rw [htab] at e1
  obtain rfl := Except.ok.inj e1
  have hcell : ∀ j, j + 1 < edges.length → tab.cell "n" j = if InHistBin edges j ev.key then 1 else 0 := by
    intro j hj
    rw [(f1 j hj).1]
    by_cases hh : InHistBin edges j ev.key <;> simp [countEvents, hh]
  have hcalc : calculateBinIndices false false [ev.key] edges = .ok [binIdx edges ev.key] := by
    rw [calculateBinIndices_increasing h _ (by simp)]; simp
  rw [hcalc]
  constructor
  · intro i hi j hj
    have : binIdx edges ev.key = ((i:ℤ), true) := by simpa using hi
    have hb := ((binIdx_inBin h ev.key i).mp this).inHistBin
    rw [hcell j hj]
    by_cases hji : j = i
    · subst hji; simp [hb]
    · rw [if_neg hji, if_neg (fun hh => hji (inHistBin_unique h hh hb))]
  · intro i z hi hne hz
    have hib : InHistBin edges i ev.key := by
      by_contra hc; rw [hcell i hi, if_neg hc] at hne; exact hne rfl
    have hz' : binIdx edges ev.key = (z, false) := by simpa using hz
    obtain ⟨h1, h2, h3⟩ := id hib
    rcases h3 with h3 | ⟨h3, h4⟩
    · rw [(binIdx_inBin h _ i).mpr ⟨h1, h2, h3⟩] at hz'; simp at hz'
    · have e : edges[i+1] = edges[edges.length - 1]'(by omega) := by congr 1; omega
      rw [e] at h4
      refine ⟨?_, by omega⟩
      rcases FV.le_or_lt' (h.getElem_ne_nan (show edges.length - 1 < edges.length by omega))
        (FV.ne_nan_of_le h2).2 with h5 | h5
      · exact FV.le_antisymm' h4 h5
      · rw [(binIdx_inBin h _ i).mpr ⟨h1, h2, by rw [e]; exact h5⟩] at hz'; simp at hz'

/-- The exceptional event exists: a value on the last edge is histogrammed but invalid for cuts. -/
example : (∃ tab, createHistogramTable (⟨false, false, [⟨.fin 1, 1, "g"⟩]⟩ : EventTable ℚ) [.fin 0, .fin 1]
      = .ok tab ∧ tab.cols "n" = some [1]) ∧
    calculateBinIndices false false [.fin 1] ([.fin 0, .fin 1] : List (FV ℚ))
      = .ok [(OVERFLOW_INDEX, false)] := by
  refine ⟨⟨_, rfl, by decide +kernel⟩, by decide +kernel⟩

end Pyirf.Binning
