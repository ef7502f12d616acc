import Verif.Units.BenchProps
import Verif.Units.SimProps
import Verif.Sensitivity.BgLemmas

/-!
# C153: the background estimate does not depend on the units of the arguments
-/
set_option linter.unusedSectionVars false
set_option linter.unusedSimpArgs false

namespace Pyirf.Units
open Pyirf Pyirf.Np Pyirf.Io Pyirf.Binning Pyirf.Sensitivity
open Pyirf.Cuts (scale_pinf scale_ninf scale_scale isNan_scale lt_scale le_scale)

/-! ## Specification -/

/-- Two tables with the same background events, whose columns have other units. -/
def SameOff (t u : OffTable) : Prop :=
  SameU t.energy u.energy ∧ SameU t.offset u.offset ∧ t.hasWeight = u.hasWeight ∧ t.hasParticle = u.hasParticle ∧
  List.Forall₂ (fun r r' : BgEvent => si t.energy r.energy = si u.energy r'.energy ∧ si t.offset r.offset = si u.offset r'.offset ∧ r.weight = r'.weight ∧ r.particle = r'.particle) t.rows u.rows

/-- Two tables of the same theta cuts, whose columns have other units. -/
def SameTheta (a b : ThetaTable) : Prop :=
  SameU a.center b.center ∧ SameU a.cut b.cut ∧ List.Forall₂ (fun r r' : FV ℝ × FV ℝ => si a.center r.1 = si b.center r'.1 ∧ si a.cut r.2 = si b.cut r'.2) a.rows b.rows

/-- Two numbers are the same quantity, given in two units. -/
def SameQ (x y : Q (FV ℝ)) : Prop := SameU x.unit y.unit ∧ si x.unit x.val = si y.unit y.val

/-- The background events with energies and offsets in SI units. -/
noncomputable def OffTable.siRows (t : OffTable) : List BgEvent := t.rows.map fun e => ⟨si t.energy e.energy, si t.offset e.offset, e.weight, e.particle⟩

/-- The theta cuts in SI units. -/
noncomputable def ThetaTable.siRows (t : ThetaTable) : List (FV ℝ × FV ℝ) := t.rows.map fun r => (si t.center r.1, si t.cut r.2)

/-- A table whose columns of the bins are multiplied by a number. -/
noncomputable def scaleBinColumns (c : ℝ) (t : Table (FV ℝ)) : Table (FV ℝ) :=
  ⟨t.cols.map fun col => if col.1 = "reco_energy_low" ∨ col.1 = "reco_energy_high" ∨ col.1 = "reco_energy_center" then (col.1, col.2.map (FV.fin c * ·)) else col⟩

/-- A table with the bins in SI units. -/
noncomputable def TableQ.si (q : TableQ) : Table (FV ℝ) := scaleBinColumns q.unit.scale q.table

/-- The dimensions needed by the selection of events and the histogram. -/
def EventDims (t : OffTable) (bins : Q (List (FV ℝ))) (offMin offMax : Q (FV ℝ)) : Prop :=
  offMin.unit.dim = t.offset.dim ∧ offMax.unit.dim = t.offset.dim ∧ bins.unit.dim = t.energy.dim

/-- The dimensions needed by the ratio of the areas. -/
def CutDims (bins : Q (List (FV ℝ))) (cuts : ThetaTable) (offMin offMax : Q (FV ℝ)) : Prop :=
  cuts.center.dim = bins.unit.dim ∧ cuts.cut.dim = radian.dim ∧ offMax.unit.dim = radian.dim ∧ offMin.unit.dim = radian.dim

/-! ## Lemmas -/

theorem mul_scale_left {k : ℝ} (hk : 0 < k) (x y : FV ℝ) : (FV.fin k * x) * y = FV.fin k * (x * y) := by
  have comm : ∀ a b : FV ℝ, a * b = b * a := fun a b => by
    cases a <;> cases b <;> try rfl
    show FV.fin _ = FV.fin _
    rw [mul_comm]
  rw [comm, mul_scale_right hk, comm y x]

theorem interpSegment_scale {c d : ℝ} (hc : 0 < c) (hd : 0 < d) (x0 f0 x1 f1 x : FV ℝ) :
    interpSegment (FV.fin c * x0) (FV.fin d * f0) (FV.fin c * x1) (FV.fin d * f1) (FV.fin c * x) = FV.fin d * interpSegment x0 f0 x1 f1 x := by
  have key : ∀ s y : FV ℝ, FV.fin (d / c) * s * (FV.fin c * y) = FV.fin d * (s * y) := fun s y => by
    rw [mul_scale_left (by positivity), mul_scale_right hc, scale_scale (by positivity), div_mul_cancel₀ _ hc.ne']
  unfold interpSegment
  simp only [sub_scale hc, sub_scale hd, mul_div_mul hd hc, key, add_scale hd, isNan_scale hd, beq_scale hd]
  split_ifs <;> rfl

theorem interpGo_scale {c d : ℝ} (hc : 0 < c) (hd : 0 < d) (x : FV ℝ) : ∀ nodes : List (FV ℝ × FV ℝ),
    interpGo (nodes.map fun r => (FV.fin c * r.1, FV.fin d * r.2)) (FV.fin c * x) = FV.fin d * interpGo nodes x
  | [] => rfl
  | [_] => rfl
  | a :: b :: l => by
    have ih := interpGo_scale hc hd x (b :: l)
    simp only [List.map_cons, interpGo, lt_scale hc, beq_scale hc, interpSegment_scale hc hd] at ih ⊢
    rw [ih]
    split_ifs <;> rfl

theorem interp_scale {c d : ℝ} (hc : 0 < c) (hd : 0 < d) (nodes : List (FV ℝ × FV ℝ)) (x : FV ℝ) :
    Np.interp (nodes.map fun r => (FV.fin c * r.1, FV.fin d * r.2)) (FV.fin c * x) = FV.fin d * Np.interp nodes x := by
  unfold Np.interp
  rw [isNan_scale hc]
  cases nodes with
  | nil => split_ifs <;> rfl
  | cons a l =>
    have := interpGo_scale hc hd x (a :: l)
    simp only [List.map_cons] at this ⊢
    rw [lt_scale hc, this]
    split_ifs <;> rfl

theorem countNames_n {hp : Bool} {rows : List (Event ℝ)} {name : String} (h : name ∈ countNames hp rows) : name ≠ "reco_energy_low" ∧ name ≠ "reco_energy_high" ∧ name ≠ "reco_energy_center" := by
  have hs : scaled name = true := by
    unfold countNames at h
    rw [List.mem_reverse, List.mem_dedup, List.mem_reverse, List.mem_append] at h
    rcases h with h | h
    · rcases List.mem_cons.1 h with h | h
      · rw [h]; exact scaled_n
      · rw [List.mem_singleton.1 h]; exact scaled_nw
    · split at h
      · obtain ⟨p, _, hp⟩ := List.mem_flatMap.1 h
        rcases List.mem_cons.1 hp with h | h
        · rw [h]; exact scaled_prefix p
        · rw [List.mem_singleton.1 h, String.append_assoc]; exact scaled_prefix _
      · cases h
  refine ⟨?_, ?_, ?_⟩ <;> (intro e; rw [e] at hs; revert hs; decide)

/-- the events seen by the histogram -/
noncomputable def ringEvents (rows : List BgEvent) (offMin offMax : FV ℝ) : List (Event ℝ) :=
  (rows.filter (fun e => FV.ge e.offset offMin && FV.lt e.offset offMax)).map BgEvent.toEvent

/-- the table that comes out -/
noncomputable def bgOut (names : List String) (bins : List (FV ℝ)) (cols : Cols ℝ) (ratio : List (FV ℝ)) (alpha : FV ℝ) : Table (FV ℝ) :=
  ⟨(toTable names ⟨bins.dropLast, bins.tail, binCenter bins, cols⟩).cols.map fun c => if scaled c.1 then (c.1, List.zipWith (fun x r => x * r / alpha) c.2 ratio) else c⟩

theorem createHistogramTable_shape (t : EventTable ℝ) (bins : List (FV ℝ)) :
    createHistogramTable t bins = ((createHistogramTable t bins).map HistTable.cols).map fun c => ⟨bins.dropLast, bins.tail, binCenter bins, c⟩ := by
  unfold createHistogramTable
  generalize Np.histogram bins (unitWeights t.rows) = r1
  cases r1 with
  | error e => rfl
  | ok n =>
    simp only [bind, Except.bind]
    cases t.hasWeight <;> cases (t.hasParticle && decide (0 < t.rows.length)) <;> simp only [Bool.false_eq_true, if_false, if_true]
    · rfl
    · simp only [pure, Except.pure]
      generalize List.foldlM (addParticle bins false t.rows) _ _ = r3
      cases r3 <;> rfl
    · generalize Np.histogram bins (withWeights t.rows) = r2
      cases r2 <;> rfl
    · generalize Np.histogram bins (withWeights t.rows) = r2
      cases r2 with
      | error e => rfl
      | ok w =>
        simp only
        generalize List.foldlM (addParticle bins true t.rows) _ _ = r3
        cases r3 <;> rfl

/-- the ratio of the areas for cuts and ring in radian -/
noncomputable def areaRatio (bins : List (FV ℝ)) (cuts : List (FV ℝ × FV ℝ)) (offMin offMax : FV ℝ) : List (FV ℝ) :=
  (((binCenter bins).map (Np.interp cuts)).map Utils.coneSolidAngleF).map (· / (Utils.coneSolidAngleF offMax - Utils.coneSolidAngleF offMin))

theorem estimateBackground_eq (hw hp : Bool) (rows : List BgEvent) (bins : List (FV ℝ)) (cuts : List (FV ℝ × FV ℝ)) (alpha mn mx : FV ℝ) :
    estimateBackground hw hp rows bins cuts alpha mn mx =
      ((createHistogramTable ⟨hw, hp, ringEvents rows mn mx⟩ bins).map HistTable.cols).map fun C => bgOut (countNames hp (ringEvents rows mn mx)) bins C (areaRatio bins cuts mn mx) alpha := by
  unfold estimateBackground histTable
  have h := createHistogramTable_shape ⟨hw, hp, ringEvents rows mn mx⟩ bins
  unfold ringEvents at h ⊢
  dsimp only
  generalize createHistogramTable _ bins = r at h ⊢
  cases r with
  | error e => rfl
  | ok x =>
    simp only [Except.map, Except.ok.injEq] at h
    unfold bgOut
    simp only [Except.map, ← h]
    rfl

theorem ringEvents_scale {c d : ℝ} (hd : 0 < d) (rows : List BgEvent) (mn mx : FV ℝ) :
    ringEvents (rows.map fun e => ⟨FV.fin c * e.energy, FV.fin d * e.offset, e.weight, e.particle⟩) (FV.fin d * mn) (FV.fin d * mx) =
      (ringEvents rows mn mx).map fun e => ⟨FV.fin c * e.key, e.weight, e.particle⟩ := by
  unfold ringEvents
  rw [List.filter_map, List.map_map, List.map_map]
  have : ((fun e : BgEvent => FV.ge e.offset (FV.fin d * mn) && FV.lt e.offset (FV.fin d * mx)) ∘ fun e : BgEvent => (⟨FV.fin c * e.energy, FV.fin d * e.offset, e.weight, e.particle⟩ : BgEvent)) =
      fun e : BgEvent => FV.ge e.offset mn && FV.lt e.offset mx := by
    funext e
    simp only [Function.comp, FV.ge, le_scale hd, lt_scale hd]
  rw [this]
  rfl

theorem countNames_scale (c : ℝ) (hp : Bool) (rows : List (Event ℝ)) :
    countNames hp (rows.map fun e => ⟨FV.fin c * e.key, e.weight, e.particle⟩) = countNames hp rows := by
  unfold countNames
  have : groupKeys (rows.map fun e => (⟨FV.fin c * e.key, e.weight, e.particle⟩ : Event ℝ)) = groupKeys rows := by
    unfold groupKeys; rw [List.map_map]; rfl
  rw [this, List.length_map]

theorem bgOut_scale (hp : Bool) (rows : List (Event ℝ)) {c : ℝ} (hc : 0 < c) (bins : List (FV ℝ)) (C : Cols ℝ) (ratio : List (FV ℝ)) (alpha : FV ℝ) :
    bgOut (countNames hp rows) (bins.map (FV.fin c * ·)) C ratio alpha = scaleBinColumns c (bgOut (countNames hp rows) bins C ratio alpha) := by
  unfold bgOut scaleBinColumns toTable
  simp only [List.map_append, List.map_cons, List.map_nil, List.map_map, binCenter_scale hc, ← List.map_dropLast, ← List.map_tail]
  congr 1
  congr 1
  apply List.map_congr_left
  intro col hcol
  obtain ⟨name, hn, he⟩ := List.mem_filterMap.1 hcol
  cases hC : C name with
  | none => rw [hC] at he; cases he
  | some v =>
    rw [hC] at he
    simp only [Option.map_some, Option.some.injEq] at he
    subst he
    have h := countNames_n hn
    simp only [Function.comp]
    by_cases hs : scaled name = true
    · simp [hs, h.1, h.2.1, h.2.2]
    · simp [hs, h.1, h.2.1, h.2.2]

/-- events, bins and centers in another unit of energy -/
theorem estimateBackground_scale {c : ℝ} (hc : 0 < c) (hw hp : Bool) (rows : List BgEvent) (bins : List (FV ℝ)) (cuts : List (FV ℝ × FV ℝ)) (alpha mn mx : FV ℝ) :
    estimateBackground hw hp (rows.map fun e => ⟨FV.fin c * e.energy, e.offset, e.weight, e.particle⟩) (bins.map (FV.fin c * ·)) (cuts.map fun r => (FV.fin c * r.1, r.2)) alpha mn mx =
      (estimateBackground hw hp rows bins cuts alpha mn mx).map (scaleBinColumns c) := by
  have e1 := ringEvents_scale (c := c) one_pos rows mn mx
  simp only [one_scale] at e1
  have e2 : areaRatio (bins.map (FV.fin c * ·)) (cuts.map fun r => (FV.fin c * r.1, r.2)) mn mx = areaRatio bins cuts mn mx := by
    unfold areaRatio
    congr 2
    rw [binCenter_scale hc, List.map_map]
    apply List.map_congr_left
    intro x _
    have := interp_scale hc one_pos cuts x
    simp only [one_scale] at this
    exact this
  rw [estimateBackground_eq, estimateBackground_eq, e1, e2, countNames_scale]
  have e3 := createHistogramTable_scale hc bins ⟨hw, hp, ringEvents rows mn mx⟩
  unfold scaleEvents at e3
  rw [e3]
  generalize (createHistogramTable _ bins).map HistTable.cols = r
  cases r with
  | error e => rfl
  | ok C =>
    simp only [Except.map]
    rw [bgOut_scale hp _ hc]

theorem si_eq_conv (un : PhysUnit ℝ) (x : FV ℝ) : conv un radian x = si un x := by
  unfold conv si
  rw [show (radian : PhysUnit ℝ).scale = 1 from rfl, div_one]

/-! ## Background estimate -/

theorem listIn_eq (bins : Q (List (FV ℝ))) (target : PhysUnit ℝ) : bins.listIn target = bins.val.map (FV.fin (bins.unit.scale / target.scale) * ·) := rfl

/-- the histogram of the events in the ring, in terms of SI units -/
theorem hist_si (t : OffTable) (ho : 0 < t.offset.scale) (he : 0 < t.energy.scale) (bins : Q (List (FV ℝ))) (offMin offMax : Q (FV ℝ)) (hmn : 0 < offMin.unit.scale)
    (hmx : 0 < offMax.unit.scale) :
    (createHistogramTable ⟨t.hasWeight, t.hasParticle, ringEvents t.rows (conv offMin.unit t.offset offMin.val) (conv offMax.unit t.offset offMax.val)⟩ (bins.listIn t.energy)).map HistTable.cols =
      (createHistogramTable ⟨t.hasWeight, t.hasParticle, ringEvents t.siRows (si offMin.unit offMin.val) (si offMax.unit offMax.val)⟩ (bins.val.map (si bins.unit))).map HistTable.cols ∧
    countNames t.hasParticle (ringEvents t.rows (conv offMin.unit t.offset offMin.val) (conv offMax.unit t.offset offMax.val)) =
      countNames t.hasParticle (ringEvents t.siRows (si offMin.unit offMin.val) (si offMax.unit offMax.val)) := by
  have e1 := ringEvents_scale (c := t.energy.scale) ho t.rows (conv offMin.unit t.offset offMin.val) (conv offMax.unit t.offset offMax.val)
  have k1 := si_conv (a := offMin.unit) ho offMin.val
  have k2 := si_conv (a := offMax.unit) ho offMax.val
  have e2 : t.siRows = t.rows.map fun e => (⟨FV.fin t.energy.scale * e.energy, FV.fin t.offset.scale * e.offset, e.weight, e.particle⟩ : BgEvent) := rfl
  have e3 : bins.val.map (si bins.unit) = (bins.listIn t.energy).map (FV.fin t.energy.scale * ·) := by
    unfold Q.listIn
    rw [List.map_map]
    apply List.map_congr_left
    intro x _
    exact (si_conv he x).symm
  unfold si at k1 k2
  rw [k1, k2] at e1
  unfold si at e3 ⊢
  rw [e2, e1, e3]
  exact ⟨(createHistogramTable_scale he _ ⟨t.hasWeight, t.hasParticle, _⟩).symm, (countNames_scale _ _ _).symm⟩

/-- the whole function in terms of SI units -/
theorem bgQ_eq (t : OffTable) (ho : 0 < t.offset.scale) (he : 0 < t.energy.scale) (bins : Q (List (FV ℝ))) (hb : 0 < bins.unit.scale) (cuts : ThetaTable) (hcc : 0 < cuts.center.scale)
    (hcu : 0 < cuts.cut.scale) (alpha : FV ℝ) (offMin offMax : Q (FV ℝ)) (hmn : 0 < offMin.unit.scale) (hmx : 0 < offMax.unit.scale) :
    (¬ EventDims t bins offMin offMax → estimateBackgroundQ t bins cuts alpha offMin offMax = .error .unitsError) ∧
    (EventDims t bins offMin offMax → ¬ CutDims bins cuts offMin offMax → estimateBackgroundQ t bins cuts alpha offMin offMax =
      ((createHistogramTable ⟨t.hasWeight, t.hasParticle, ringEvents t.siRows (si offMin.unit offMin.val) (si offMax.unit offMax.val)⟩ (bins.val.map (si bins.unit))).map HistTable.cols).bind
        fun _ => .error .unitsError) ∧
    (EventDims t bins offMin offMax → CutDims bins cuts offMin offMax → (estimateBackgroundQ t bins cuts alpha offMin offMax).map TableQ.si =
      estimateBackground t.hasWeight t.hasParticle t.siRows (bins.val.map (si bins.unit)) cuts.siRows alpha (si offMin.unit offMin.val) (si offMax.unit offMax.val)) := by
  obtain ⟨h1, h2⟩ := hist_si t ho he bins offMin offMax hmn hmx
  have hring : (t.rows.filter (fun e => FV.ge e.offset (conv offMin.unit t.offset offMin.val) && FV.lt e.offset (conv offMax.unit t.offset offMax.val))).map BgEvent.toEvent =
      ringEvents t.rows (conv offMin.unit t.offset offMin.val) (conv offMax.unit t.offset offMax.val) := rfl
  unfold estimateBackgroundQ
  simp only [checkDim_bind, hring]
  refine ⟨fun h => ?_, fun h h' => ?_, fun h h' => ?_⟩
  · by_cases a1 : offMin.unit.dim = t.offset.dim
    · by_cases a2 : offMax.unit.dim = t.offset.dim
      · rw [if_pos a1, if_pos a2, if_neg fun a3 => h ⟨a1, a2, a3⟩]
      · rw [if_pos a1, if_neg a2]
    · rw [if_neg a1]
  · rw [if_pos h.1, if_pos h.2.1, if_pos h.2.2, ← h1]
    generalize createHistogramTable _ (bins.listIn t.energy) = r
    cases r with
    | error e => rfl
    | ok C =>
      simp only [bind, Except.bind, Except.map]
      by_cases a1 : cuts.center.dim = bins.unit.dim
      · by_cases a2 : cuts.cut.dim = radian.dim
        · by_cases a3 : offMax.unit.dim = radian.dim
          · rw [if_pos a1, if_pos a2, if_pos a3, if_neg fun a4 => h' ⟨a1, a2, a3, a4⟩]
          · rw [if_pos a1, if_pos a2, if_neg a3]
        · rw [if_pos a1, if_neg a2]
      · rw [if_neg a1]
  · rw [if_pos h.1, if_pos h.2.1, if_pos h.2.2, estimateBackground_eq, ← h1, ← h2]
    simp only [if_pos h'.1, if_pos h'.2.1, if_pos h'.2.2.1, if_pos h'.2.2.2]
    have hr : areaRatio (bins.val.map (si bins.unit)) cuts.siRows (si offMin.unit offMin.val) (si offMax.unit offMax.val) =
        (((binCenter bins.val).map (Np.interp (cuts.rows.map fun r => (conv cuts.center bins.unit r.1, r.2)))).map fun x => Utils.coneSolidAngleF (conv cuts.cut radian x)).map
          (· / (Utils.coneSolidAngleF (conv offMax.unit radian offMax.val) - Utils.coneSolidAngleF (conv offMin.unit radian offMin.val))) := by
      unfold areaRatio
      rw [si_eq_conv, si_eq_conv]
      congr 1
      have hc1 : bins.val.map (si bins.unit) = bins.val.map (FV.fin bins.unit.scale * ·) := rfl
      rw [hc1, binCenter_scale hb, List.map_map, List.map_map, List.map_map]
      apply List.map_congr_left
      intro x _
      simp only [Function.comp]
      congr 1
      rw [si_eq_conv]
      unfold si
      have := interp_scale hb hcu (cuts.rows.map fun r => (conv cuts.center bins.unit r.1, r.2)) x
      rw [← this, List.map_map]
      unfold ThetaTable.siRows
      congr 1
      apply List.map_congr_left
      intro r _
      simp only [Function.comp]
      rw [← si_conv (a := cuts.center) hb r.1]
      rfl
    rw [hr]
    generalize createHistogramTable _ (bins.listIn t.energy) = r
    cases r with
    | error e => rfl
    | ok C =>
      simp only [bind, Except.bind, Except.map]
      congr 1
      have hc1 : bins.val.map (si bins.unit) = bins.val.map (FV.fin bins.unit.scale * ·) := rfl
      rw [hc1, bgOut_scale _ _ hb]
      rfl

/-- **C153** (background, value) With the bins in SI units the table is that of the events, bins, cuts and ring in SI units (radian for the angles). -/
theorem C153_background_si (t : OffTable) (ho : 0 < t.offset.scale) (he : 0 < t.energy.scale) (bins : Q (List (FV ℝ))) (hb : 0 < bins.unit.scale) (cuts : ThetaTable) (hcc : 0 < cuts.center.scale)
    (hcu : 0 < cuts.cut.scale) (alpha : FV ℝ) (offMin offMax : Q (FV ℝ)) (hmn : 0 < offMin.unit.scale) (hmx : 0 < offMax.unit.scale)
    (hd : EventDims t bins offMin offMax ∧ CutDims bins cuts offMin offMax) :
    (estimateBackgroundQ t bins cuts alpha offMin offMax).map TableQ.si =
      estimateBackground t.hasWeight t.hasParticle t.siRows (bins.val.map (si bins.unit)) cuts.siRows alpha (si offMin.unit offMin.val) (si offMax.unit offMax.val) :=
  (bgQ_eq t ho he bins hb cuts hcc hcu alpha offMin offMax hmn hmx).2.2 hd.1 hd.2

/-- **C153** (background, dimensions) Any other dimension raises a UnitsError, if the bin edges increase. -/
theorem C153_background_dims (t : OffTable) (ho : 0 < t.offset.scale) (he : 0 < t.energy.scale) (bins : Q (List (FV ℝ))) (hb : 0 < bins.unit.scale) (cuts : ThetaTable)
    (hcc : 0 < cuts.center.scale) (hcu : 0 < cuts.cut.scale) (alpha : FV ℝ) (offMin offMax : Q (FV ℝ)) (hmn : 0 < offMin.unit.scale) (hmx : 0 < offMax.unit.scale)
    (hinc : Increasing bins.val) (hd : ¬ (EventDims t bins offMin offMax ∧ CutDims bins cuts offMin offMax)) : estimateBackgroundQ t bins cuts alpha offMin offMax = .error .unitsError := by
  obtain ⟨h1, h2, _⟩ := bgQ_eq t ho he bins hb cuts hcc hcu alpha offMin offMax hmn hmx
  by_cases h : EventDims t bins offMin offMax
  · rw [h2 h fun h' => hd ⟨h, h'⟩]
    have hinc' : Increasing (bins.val.map (si bins.unit)) := by
      obtain ⟨k1, k2⟩ := hinc
      refine ⟨fun e he => ?_, ?_⟩
      · obtain ⟨x, hx, rfl⟩ := List.mem_map.1 he
        have := k1 x hx
        unfold si
        cases x <;> simp_all [scale_pinf hb, scale_ninf hb]
      · rw [List.pairwise_map]
        exact k2.imp fun {a b} hab => by unfold si; rw [le_scale hb]; exact hab
    rw [createHistogramTable_ok hinc']
    rfl
  · exact h1 h

/-- **C153** (background, same quantities) The same counts and bins, or the same error, whatever the units. -/
theorem C153_background {t u : OffTable} (ht : SameOff t u) {bins bins' : Q (List (FV ℝ))} (hb : SameL bins bins') {cuts cuts' : ThetaTable} (hc : SameTheta cuts cuts') (alpha : FV ℝ)
    {offMin offMin' offMax offMax' : Q (FV ℝ)} (hmn : SameQ offMin offMin') (hmx : SameQ offMax offMax') :
    (estimateBackgroundQ t bins cuts alpha offMin offMax).map TableQ.si = (estimateBackgroundQ u bins' cuts' alpha offMin' offMax').map TableQ.si := by
  obtain ⟨a1, a2, a3⟩ := bgQ_eq t ht.2.1.2.1 ht.1.2.1 bins hb.1.2.1 cuts hc.1.2.1 hc.2.1.2.1 alpha offMin offMax hmn.1.2.1 hmx.1.2.1
  obtain ⟨b1, b2, b3⟩ := bgQ_eq u ht.2.1.2.2 ht.1.2.2 bins' hb.1.2.2 cuts' hc.1.2.2 hc.2.1.2.2 alpha offMin' offMax' hmn.1.2.2 hmx.1.2.2
  have d1 : EventDims u bins' offMin' offMax' ↔ EventDims t bins offMin offMax := by
    unfold EventDims; rw [hmn.1.1, hmx.1.1, hb.1.1, ht.1.1, ht.2.1.1]
  have d2 : CutDims bins' cuts' offMin' offMax' ↔ CutDims bins cuts offMin offMax := by
    unfold CutDims; rw [hmn.1.1, hmx.1.1, hb.1.1, hc.1.1, hc.2.1.1]
  have k1 : bins.val.map (si bins.unit) = bins'.val.map (si bins'.unit) :=
    List.forall₂_eq_eq_eq ▸ (List.forall₂_map_left_iff.2 (List.forall₂_map_right_iff.2 hb.2))
  have k2 : t.siRows = u.siRows := by
    unfold OffTable.siRows
    apply List.forall₂_eq_eq_eq ▸ (List.forall₂_map_left_iff.2 (List.forall₂_map_right_iff.2 (ht.2.2.2.2.imp ?_)))
    intro a b e
    rw [e.1, e.2.1, e.2.2.1, e.2.2.2]
  have k3 : cuts.siRows = cuts'.siRows := by
    unfold ThetaTable.siRows
    apply List.forall₂_eq_eq_eq ▸ (List.forall₂_map_left_iff.2 (List.forall₂_map_right_iff.2 (hc.2.2.imp ?_)))
    intro a b e
    rw [e.1, e.2]
  by_cases h : EventDims t bins offMin offMax
  · by_cases h' : CutDims bins cuts offMin offMax
    · rw [a3 h h', b3 (d1.2 h) (d2.2 h'), k1, k2, k3, hmn.2, hmx.2, ht.2.2.1, ht.2.2.2.1]
    · rw [a2 h h', b2 (d1.2 h) (fun e => h' (d2.1 e)), k1, k2, hmn.2, hmx.2, ht.2.2.1, ht.2.2.2.1]
  · rw [a1 h, b1 fun e => h (d1.1 e)]

/-! ## The hypotheses can be met -/

example : SameOff ⟨⟨⟨2, 1, -2, 0⟩, 1000⟩, ⟨⟨0, 0, 0, 1⟩, 1⟩, true, false, [⟨.fin 2, .fin 3, 5, "p"⟩]⟩ ⟨⟨⟨2, 1, -2, 0⟩, 1⟩, ⟨⟨0, 0, 0, 1⟩, 1 / 10⟩, true, false, [⟨.fin 2000, .fin 30, 5, "p"⟩]⟩ := by
  refine ⟨⟨rfl, ?_, ?_⟩, ⟨rfl, ?_, ?_⟩, rfl, rfl, List.Forall₂.cons ⟨?_, ?_, rfl, rfl⟩ List.Forall₂.nil⟩ <;> first | (show (0 : ℝ) < _; norm_num; done) | skip
  all_goals unfold si; simp only [FV.fin_mul_fin]; norm_num

example : SameTheta ⟨⟨⟨2, 1, -2, 0⟩, 1000⟩, ⟨⟨0, 0, 0, 1⟩, 1⟩, [(.fin 2, .fin 3)]⟩ ⟨⟨⟨2, 1, -2, 0⟩, 1⟩, ⟨⟨0, 0, 0, 1⟩, 1 / 10⟩, [(.fin 2000, .fin 30)]⟩ := by
  refine ⟨⟨rfl, ?_, ?_⟩, ⟨rfl, ?_, ?_⟩, List.Forall₂.cons ⟨?_, ?_⟩ List.Forall₂.nil⟩ <;> first | (show (0 : ℝ) < _; norm_num; done) | skip
  all_goals unfold si; simp only [FV.fin_mul_fin]; norm_num

/-- dimensions as required, in several units -/
example : EventDims ⟨⟨⟨2, 1, -2, 0⟩, 1000⟩, ⟨⟨0, 0, 0, 1⟩, 1 / 10⟩, true, false, []⟩ ⟨⟨⟨2, 1, -2, 0⟩, 1⟩, [.fin 1, .fin 2]⟩ ⟨⟨⟨0, 0, 0, 1⟩, 1⟩, .fin 0⟩ ⟨⟨⟨0, 0, 0, 1⟩, 1 / 100⟩, .fin 5⟩ ∧
    CutDims ⟨⟨⟨2, 1, -2, 0⟩, 1⟩, [.fin 1, .fin 2]⟩ ⟨⟨⟨2, 1, -2, 0⟩, 1000⟩, ⟨⟨0, 0, 0, 1⟩, 1⟩, [(.fin 2, .fin 3)]⟩ ⟨⟨⟨0, 0, 0, 1⟩, 1⟩, .fin 0⟩ ⟨⟨⟨0, 0, 0, 1⟩, 1 / 100⟩, .fin 5⟩ :=
  ⟨⟨rfl, rfl, rfl⟩, rfl, rfl, rfl, rfl⟩

end Pyirf.Units
