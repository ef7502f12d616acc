import Verif.Units.Model
import Verif.Cuts.UnitProps

/-! # Helper lemmas: scaling of floats and histograms -/
set_option linter.unusedSectionVars false
set_option linter.unusedSimpArgs false

namespace Pyirf.Units
open Pyirf Pyirf.Np Pyirf.Io Pyirf.Utils Pyirf.Simulations Pyirf.Irf Pyirf.Binning
open Pyirf.Cuts (scale_pinf scale_ninf scale_scale isNan_scale lt_scale le_scale)

theorem sub_scale {c : ℝ} (hc : 0 < c) (a b : FV ℝ) : FV.fin c * a - FV.fin c * b = FV.fin c * (a - b) := by
  cases a <;> cases b <;> simp [scale_pinf hc, scale_ninf hc] <;> first | rfl | skip
  all_goals first | (show FV.ninf = _; exact (scale_ninf hc).symm) | (show FV.pinf = _; exact (scale_pinf hc).symm) | skip
  ring

theorem add_scale {c : ℝ} (hc : 0 < c) (a b : FV ℝ) : FV.fin c * a + FV.fin c * b = FV.fin c * (a + b) := by
  cases a <;> cases b <;> simp [scale_pinf hc, scale_ninf hc] <;> first | rfl | skip
  all_goals first | (show FV.ninf = _; exact (scale_ninf hc).symm) | (show FV.pinf = _; exact (scale_pinf hc).symm) | skip
  ring

theorem infSign_scale {c : ℝ} (hc : 0 < c) (x : ℝ) : FV.infSign (c * x) = FV.infSign x := by
  unfold FV.infSign
  simp only [mul_eq_zero, hc.ne', false_or, mul_pos_iff_of_pos_left hc]

theorem scale_infSign {c : ℝ} (hc : 0 < c) (x : ℝ) : FV.fin c * FV.infSign x = FV.infSign x := by
  rw [fin_mul_infSign hc, infSign_scale hc]

theorem div_fin_fin (a b : ℝ) : (FV.fin a / FV.fin b : FV ℝ) = if b = 0 then FV.infSign a else FV.fin (a / b) := rfl
theorem div_fin_pinf (a : ℝ) : (FV.fin a / FV.pinf : FV ℝ) = FV.fin 0 := rfl
theorem div_fin_ninf (a : ℝ) : (FV.fin a / FV.ninf : FV ℝ) = FV.fin 0 := rfl
theorem div_pinf_fin (b : ℝ) : (FV.pinf / FV.fin b : FV ℝ) = if b < 0 then FV.ninf else FV.pinf := rfl
theorem div_ninf_fin (b : ℝ) : (FV.ninf / FV.fin b : FV ℝ) = if b < 0 then FV.pinf else FV.ninf := rfl

/-- `(c x) / y = c (x / y)` -/
theorem mul_div_left {c : ℝ} (hc : 0 < c) (x y : FV ℝ) : (FV.fin c * x) / y = FV.fin c * (x / y) := by
  cases x with
  | nan => simp
  | ninf => cases y with
    | fin b =>
      rw [scale_ninf hc, div_ninf_fin]; split_ifs
      · exact (scale_pinf hc).symm
      · exact (scale_ninf hc).symm
    | _ => rw [scale_ninf hc]; rfl
  | pinf => cases y with
    | fin b =>
      rw [scale_pinf hc, div_pinf_fin]; split_ifs
      · exact (scale_ninf hc).symm
      · exact (scale_pinf hc).symm
    | _ => rw [scale_pinf hc]; rfl
  | fin a => cases y with
    | nan => simp
    | ninf => rw [FV.fin_mul_fin, div_fin_ninf, div_fin_ninf, FV.fin_mul_fin, mul_zero]
    | pinf => rw [FV.fin_mul_fin, div_fin_pinf, div_fin_pinf, FV.fin_mul_fin, mul_zero]
    | fin b =>
      rw [FV.fin_mul_fin, div_fin_fin, div_fin_fin]
      split_ifs
      · rw [infSign_scale hc, scale_infSign hc]
      · rw [FV.fin_mul_fin, mul_div_assoc]

/-- `x / (c y) = (x / y) / c` -/
theorem div_mul_left {c : ℝ} (hc : 0 < c) (x y : FV ℝ) : x / (FV.fin c * y) = FV.fin (1 / c) * (x / y) := by
  have hc' : 0 < 1 / c := by positivity
  have hneg : ∀ b : ℝ, c * b < 0 ↔ b < 0 := fun b => by
    constructor
    · intro h; by_contra hb; nlinarith [mul_nonneg hc.le (not_lt.1 hb)]
    · intro h; exact mul_neg_of_pos_of_neg hc h
  cases y with
  | nan => simp
  | ninf => cases x with
    | fin a => rw [scale_ninf hc, div_fin_ninf, FV.fin_mul_fin, mul_zero]
    | _ => rw [scale_ninf hc]; rfl
  | pinf => cases x with
    | fin a => rw [scale_pinf hc, div_fin_pinf, FV.fin_mul_fin, mul_zero]
    | _ => rw [scale_pinf hc]; rfl
  | fin b => cases x with
    | nan => simp
    | ninf =>
      rw [FV.fin_mul_fin, div_ninf_fin, div_ninf_fin]; simp only [hneg]; split_ifs
      · exact (scale_pinf hc').symm
      · exact (scale_ninf hc').symm
    | pinf =>
      rw [FV.fin_mul_fin, div_pinf_fin, div_pinf_fin]; simp only [hneg]; split_ifs
      · exact (scale_ninf hc').symm
      · exact (scale_pinf hc').symm
    | fin a =>
      rw [FV.fin_mul_fin, div_fin_fin, div_fin_fin]
      simp only [mul_eq_zero, hc.ne', false_or]
      split_ifs with h
      · rw [scale_infSign hc']
      · rw [FV.fin_mul_fin]; congr 1; field_simp

/-- `(a x) / (b y) = (a / b) (x / y)` -/
theorem mul_div_mul {a b : ℝ} (ha : 0 < a) (hb : 0 < b) (x y : FV ℝ) : (FV.fin a * x) / (FV.fin b * y) = FV.fin (a / b) * (x / y) := by
  rw [mul_div_left ha, div_mul_left hb, scale_scale ha]
  congr 2; field_simp

theorem one_scale (x : FV ℝ) : FV.fin 1 * x = x := by
  cases x <;> simp [scale_pinf, scale_ninf]

theorem sortLt_scale {c : ℝ} (hc : 0 < c) (a b : FV ℝ) : FV.sortLt (FV.fin c * a) (FV.fin c * b) = FV.sortLt a b := by
  cases a <;> cases b <;> simp [scale_pinf hc, scale_ninf hc, FV.sortLt, FV.lt, hc]

theorem beq_scale {c : ℝ} (hc : 0 < c) (a b : FV ℝ) : FV.beq (FV.fin c * a) (FV.fin c * b) = FV.beq a b := by
  unfold FV.beq; rw [le_scale hc, le_scale hc]

theorem searchsortedRight_scale {c : ℝ} (hc : 0 < c) (es : List (FV ℝ)) (x : FV ℝ) :
    searchsortedRight (es.map (FV.fin c * ·)) (FV.fin c * x) = searchsortedRight es x := by
  unfold searchsortedRight
  rw [List.countP_map]
  congr 1
  funext e
  simp only [Function.comp, sortLt_scale hc]

theorem histddBin_scale {c : ℝ} (hc : 0 < c) (es : List (FV ℝ)) (x : FV ℝ) : histddBin (es.map (FV.fin c * ·)) (FV.fin c * x) = histddBin es x := by
  unfold histddBin
  rw [searchsortedRight_scale hc, List.getLast?_map, List.length_map]
  have : (Option.map (fun e => FV.beq (FV.fin c * x) e) (Option.map (fun x => FV.fin c * x) es.getLast?)) = Option.map (fun e => FV.beq x e) es.getLast? := by
    rw [Option.map_map]; congr 1; funext e; simp only [Function.comp, beq_scale hc]
  rw [this]

theorem ofFn_scale {n : ℕ} (c : ℝ) (e : Fin n → FV ℝ) : List.ofFn (fun i => FV.fin c * e i) = (List.ofFn e).map (FV.fin c * ·) := by
  rw [List.map_ofFn]; rfl

theorem badEdges_scale {c : ℝ} (hc : 0 < c) {n : ℕ} (e : Fin (n + 1) → FV ℝ) : badEdges (fun i => FV.fin c * e i) ↔ badEdges e := by
  unfold badEdges FV.gt
  simp only [lt_scale hc]

/-- multiplying the columns and the edges by positive numbers changes nothing -/
theorem histogram2d_scale {a b : ℝ} (ha : 0 < a) (hb : 0 < b) {n m : ℕ} (e1 : Fin (n + 1) → FV ℝ) (e2 : Fin (m + 1) → FV ℝ) (rows : List (FV ℝ × FV ℝ × ℝ)) :
    histogram2d (fun i => FV.fin a * e1 i) (fun i => FV.fin b * e2 i) (rows.map fun r => (FV.fin a * r.1, FV.fin b * r.2.1, r.2.2)) = histogram2d e1 e2 rows := by
  unfold histogram2d
  simp only [badEdges_scale ha, badEdges_scale hb, ofFn_scale]
  congr 1
  congr 1
  funext i j
  rw [List.filter_map, List.map_map]
  congr 2
  simp only [Function.comp_def, histddBin_scale ha, histddBin_scale hb]

theorem histogram3d_scale {a b d : ℝ} (ha : 0 < a) (hb : 0 < b) (hd : 0 < d) {n m k : ℕ} (e1 : Fin (n + 1) → FV ℝ) (e2 : Fin (m + 1) → FV ℝ) (e3 : Fin (k + 1) → FV ℝ)
    (rows : List (FV ℝ × FV ℝ × FV ℝ × ℝ)) :
    histogram3d (fun i => FV.fin a * e1 i) (fun i => FV.fin b * e2 i) (fun i => FV.fin d * e3 i) (rows.map fun r => (FV.fin a * r.1, FV.fin b * r.2.1, FV.fin d * r.2.2.1, r.2.2.2)) =
      histogram3d e1 e2 e3 rows := by
  unfold histogram3d
  simp only [badEdges_scale ha, badEdges_scale hb, badEdges_scale hd, ofFn_scale]
  congr 1
  congr 1
  funext i j l
  rw [List.filter_map, List.map_map]
  congr 2
  simp only [Function.comp_def, histddBin_scale ha, histddBin_scale hb, histddBin_scale hd]

/-! ## One-dimensional histograms and tables -/

theorem wsum_scale {c : ℝ} (p p' : FV ℝ → Bool) (h : ∀ x, p' (FV.fin c * x) = p x) (xs : List (FV ℝ × ℝ)) :
    wsum p' (xs.map fun v => (FV.fin c * v.1, v.2)) = wsum p xs := by
  unfold wsum
  rw [List.filter_map, List.map_map]
  congr 2
  simp only [Function.comp_def, h]

theorem anyDescent_scale {c : ℝ} (hc : 0 < c) (es : List (FV ℝ)) : anyDescent (es.map (FV.fin c * ·)) = anyDescent es := by
  unfold anyDescent
  rw [← List.map_tail, List.zipWith_map]
  congr 2
  funext a b
  exact lt_scale hc b a

theorem histogram_scale {c : ℝ} (hc : 0 < c) (es : List (FV ℝ)) (xs : List (FV ℝ × ℝ)) :
    Np.histogram (es.map (FV.fin c * ·)) (xs.map fun v => (FV.fin c * v.1, v.2)) = Np.histogram es xs := by
  unfold Np.histogram
  rw [anyDescent_scale hc]
  have : histCum (es.map (FV.fin c * ·)) (xs.map fun v => (FV.fin c * v.1, v.2)) = histCum es xs := by
    unfold histCum
    rw [← List.map_dropLast, List.map_map, List.getLast?_map]
    congr 1
    · apply List.map_congr_left
      intro e _
      exact wsum_scale (fun x => FV.sortLt x e) (fun x => FV.sortLt x (FV.fin c * e)) (fun x => sortLt_scale hc x e) xs
    · cases es.getLast? with
      | none => rfl
      | some e =>
        show [_] = [_]
        congr 1
        exact wsum_scale (fun x => !FV.sortLt e x) (fun x => !FV.sortLt (FV.fin c * e) x) (fun x => by rw [sortLt_scale hc]) xs
  rw [this]

/-- the events with another unit -/
noncomputable def scaleEvents (c : ℝ) (t : EventTable ℝ) : EventTable ℝ := ⟨t.hasWeight, t.hasParticle, t.rows.map fun e => ⟨FV.fin c * e.key, e.weight, e.particle⟩⟩

theorem addParticle_scale {c : ℝ} (hc : 0 < c) (es : List (FV ℝ)) (hw : Bool) (evs : List (Event ℝ)) :
    addParticle (es.map (FV.fin c * ·)) hw (evs.map fun e => ⟨FV.fin c * e.key, e.weight, e.particle⟩) = addParticle es hw evs := by
  funext cols p
  unfold addParticle unitWeights withWeights
  have h1 : (evs.map fun e => (⟨FV.fin c * e.key, e.weight, e.particle⟩ : Event ℝ)).filter (fun e => e.particle = p) =
      (evs.filter fun e => e.particle = p).map fun e => ⟨FV.fin c * e.key, e.weight, e.particle⟩ := by
    rw [List.filter_map]; rfl
  simp only [h1, List.map_map]
  have h2 : ((evs.filter fun e => decide (e.particle = p)).map ((fun e : Event ℝ => (e.key, (1 : ℝ))) ∘ fun e => ⟨FV.fin c * e.key, e.weight, e.particle⟩)) =
      ((evs.filter fun e => decide (e.particle = p)).map fun e => (e.key, (1 : ℝ))).map fun v => (FV.fin c * v.1, v.2) := by
    rw [List.map_map]; rfl
  have h3 : ((evs.filter fun e => decide (e.particle = p)).map ((fun e : Event ℝ => (e.key, e.weight)) ∘ fun e => ⟨FV.fin c * e.key, e.weight, e.particle⟩)) =
      ((evs.filter fun e => decide (e.particle = p)).map fun e => (e.key, e.weight)).map fun v => (FV.fin c * v.1, v.2) := by
    rw [List.map_map]; rfl
  rw [h2, h3, histogram_scale hc, histogram_scale hc]

/-- a histogram table in another unit has the same content -/
theorem createHistogramTable_scale {c : ℝ} (hc : 0 < c) (es : List (FV ℝ)) (t : EventTable ℝ) :
    (createHistogramTable (scaleEvents c t) (es.map (FV.fin c * ·))).map HistTable.cols = (createHistogramTable t es).map HistTable.cols := by
  unfold createHistogramTable scaleEvents unitWeights withWeights
  have h2 : (t.rows.map fun e => (⟨FV.fin c * e.key, e.weight, e.particle⟩ : Event ℝ)).map (fun e => (e.key, (1 : ℝ))) =
      (t.rows.map fun e => (e.key, (1 : ℝ))).map fun v => (FV.fin c * v.1, v.2) := by
    rw [List.map_map, List.map_map]; rfl
  have h3 : (t.rows.map fun e => (⟨FV.fin c * e.key, e.weight, e.particle⟩ : Event ℝ)).map (fun e => (e.key, e.weight)) =
      (t.rows.map fun e => (e.key, e.weight)).map fun v => (FV.fin c * v.1, v.2) := by
    rw [List.map_map, List.map_map]; rfl
  have h4 : groupKeys (t.rows.map fun e => (⟨FV.fin c * e.key, e.weight, e.particle⟩ : Event ℝ)) = groupKeys t.rows := by
    unfold groupKeys; rw [List.map_map]; rfl
  simp only [h2, h3, h4, histogram_scale hc, addParticle_scale hc, List.length_map]
  generalize Np.histogram es (t.rows.map fun e => (e.key, (1 : ℝ))) = r1
  cases r1 with
  | error e => rfl
  | ok n =>
    simp only [bind, Except.bind]
    cases t.hasWeight <;> cases (t.hasParticle && decide (0 < t.rows.length)) <;> simp only [Bool.false_eq_true, if_false, if_true]
    · rfl
    · simp only [pure, Except.pure]
      generalize List.foldlM (addParticle es false t.rows) _ _ = r3
      cases r3 <;> rfl
    · generalize Np.histogram es (t.rows.map fun e => (e.key, e.weight)) = r2
      cases r2 <;> rfl
    · generalize Np.histogram es (t.rows.map fun e => (e.key, e.weight)) = r2
      cases r2 with
      | error e => rfl
      | ok w =>
        simp only
        generalize List.foldlM (addParticle es true t.rows) _ _ = r3
        cases r3 <;> rfl

end Pyirf.Units
