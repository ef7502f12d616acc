import Verif.Irf.Model
import Verif.Binning.HistProps
import Verif.Bench.Model
import Verif.CutOpt.Model

/-!
# The order of the events does not matter (C118)

Every function that reduces an event list to a table or an array gives the same result, or raises the same exception, for the same
events in any other order. No assumption on edges, values, percentiles: the statements also hold where the functions raise.
-/
set_option linter.unusedSectionVars false

namespace Pyirf.Pipeline
open Pyirf Pyirf.Np Pyirf.Binning Pyirf.Cuts Pyirf.Sensitivity Pyirf.CutOpt Pyirf.Irf Pyirf.Simulations

/-! ## Tables by group -/

section groups
variable {K : Type*} [Field K] [LinearOrder K]

/-- bin index of one value, as `calculate_bin_indices` gives it -/
def binIndex (bins : List (FV K)) (x : FV K) : ℤ × Bool :=
  match Np.digitize bins x with
  | .ok c => binIndexOf bins.length c
  | .error _ => (UNDERFLOW_INDEX, false)

theorem calculateBinIndices_map (bins data : List (FV K)) :
    calculateBinIndices false false data bins = if Np.monotonicity bins = 0 then .error .valueError else .ok (data.map (binIndex bins)) := by
  unfold calculateBinIndices
  simp only [Bool.false_and, Bool.false_eq_true, if_false]
  rfl

theorem keys_perm {l l' : List ℕ} (h : l.Perm l') : l.dedup.insertionSort (· ≤ ·) = l'.dedup.insertionSort (· ≤ ·) := by
  apply List.Perm.eq_of_pairwise' (r := (· ≤ ·))
  · exact List.pairwise_insertionSort _ _
  · exact List.pairwise_insertionSort _ _
  · exact ((List.perm_insertionSort _ _).trans h.dedup).trans (List.perm_insertionSort _ _).symm

theorem groupedBy_perm {l l' : List ℕ} (h : l.Perm l') : groupedBy l = groupedBy l' := by
  have hnil : l = [] ↔ l' = [] := by
    rw [← List.length_eq_zero_iff, ← List.length_eq_zero_iff, h.length_eq]
  unfold groupedBy
  simp only [hnil, keys_perm h]

theorem byBin_perm {α : Type*} (bins : List (FV K)) (x v : α → FV K) {evs evs' : List α} (h : evs.Perm evs') :
    (((((evs.map x).map (binIndex bins)).zip (evs.map v)).filter (fun e => e.1.2)).map (fun e => (e.1.1.toNat, e.2))).Perm
    (((((evs'.map x).map (binIndex bins)).zip (evs'.map v)).filter (fun e => e.1.2)).map (fun e => (e.1.1.toNat, e.2))) := by
  have e : ∀ l : List α, ((l.map x).map (binIndex bins)).zip (l.map v) = l.map fun a => (binIndex bins (x a), v a) := by
    intro l
    induction l with
    | nil => rfl
    | cons a l ih => simp only [List.map_cons, List.zip_cons_cons, ih]
  rw [e, e]
  exact ((h.map _).filter _).map _

theorem cutStep_perm {C : Type*} (pct : List (FV K) → Except Err C) (hpct : ∀ g g' : List (FV K), g.Perm g' → pct g = pct g') (clip : C → C)
    (fill : C) (minEvents : ℤ) {byBin byBin' : List (ℕ × FV K)} (h : byBin.Perm byBin') :
    cutStep pct clip fill minEvents byBin = cutStep pct clip fill minEvents byBin' := by
  funext tab k
  have hg := (h.filter (fun e => e.1 = k)).map Prod.snd
  unfold cutStep
  simp only [hg.length_eq, hpct _ _ hg]

theorem cutTable_perm {C : Type*} (pct : List (FV K) → Except Err C) (hpct : ∀ g g' : List (FV K), g.Perm g' → pct g = pct g') (clip : C → C)
    (fill : C) (minEvents : ℤ) {evs evs' : List (FV K × FV K)} (h : evs.Perm evs') (bins : List (FV K)) :
    cutTable pct clip fill minEvents evs bins = cutTable pct clip fill minEvents evs' bins := by
  unfold cutTable
  rw [calculateBinIndices_map, calculateBinIndices_map]
  by_cases hm : Np.monotonicity bins = 0
  · rw [if_pos hm, if_pos hm]
  · rw [if_neg hm, if_neg hm]
    have hb := byBin_perm bins Prod.snd Prod.fst h
    simp only []
    rw [cutStep_perm pct hpct clip fill minEvents hb, groupedBy_perm (hb.map Prod.fst)]

end groups

section pct
variable {K : Type*} [Field K] [LinearOrder K] [IsStrictOrderedRing K] [FloorRing K]

/-- **C118** `calculate_percentile_cut`, one percentile. -/
theorem C118_percentile_cut (evs evs' : List (FV K × FV K)) (h : evs.Perm evs') (bins : List (FV K)) (fill : FV K) (p : K)
    (minV maxV : Option (FV K)) (minEvents : ℤ) :
    percentileCut evs bins fill p minV maxV minEvents = percentileCut evs' bins fill p minV maxV minEvents :=
  cutTable_perm _ (fun _ _ hg => Np.nanquantile_perm hg _) _ _ _ h _

/-- **C118** `calculate_percentile_cut`, a list of percentiles. -/
theorem C118_percentile_cuts (evs evs' : List (FV K × FV K)) (h : evs.Perm evs') (bins : List (FV K)) (fill : FV K) (ps : List K)
    (minV maxV : Option (FV K)) (minEvents : ℤ) :
    percentileCuts evs bins fill ps minV maxV minEvents = percentileCuts evs' bins fill ps minV maxV minEvents :=
  cutTable_perm _ (fun g g' hg => by
    have : (fun p => Np.nanpercentile g p) = fun p => Np.nanpercentile g' p := funext fun p => Np.nanquantile_perm hg _
    show ps.mapM _ = ps.mapM _
    rw [this]) _ _ _ h _
end pct

/-- **C118** `calculate_percentile_cut` with smoothing. -/
theorem C118_smoothed (evs evs' : List (FV ℝ × FV ℝ)) (h : evs.Perm evs') (bins : List (FV ℝ)) (fill : FV ℝ) (p : ℝ) (ps : List ℝ)
    (minV maxV : Option (FV ℝ)) (smoothing : Option ℝ) (minEvents : ℤ) :
    percentileCutSmoothed evs bins fill p minV maxV smoothing minEvents = percentileCutSmoothed evs' bins fill p minV maxV smoothing minEvents ∧
    percentileCutsSmoothed evs bins fill ps minV maxV smoothing minEvents = percentileCutsSmoothed evs' bins fill ps minV maxV smoothing minEvents := by
  constructor
  · unfold percentileCutSmoothed; rw [C118_percentile_cut evs evs' h]
  · unfold percentileCutsSmoothed; rw [C118_percentile_cuts evs evs' h]

/-! ## Response functions -/

theorem histogram2d_perm {n m : ℕ} (e1 : Fin (n + 1) → FV ℝ) (e2 : Fin (m + 1) → FV ℝ) {rows rows' : List (FV ℝ × FV ℝ × ℝ)}
    (h : rows.Perm rows') : histogram2d e1 e2 rows = histogram2d e1 e2 rows' := by
  unfold histogram2d
  split
  · rfl
  · congr 1
    funext i j
    exact ((h.filter _).map _).sum_eq

theorem histogram3d_perm {n m k : ℕ} (e1 : Fin (n + 1) → FV ℝ) (e2 : Fin (m + 1) → FV ℝ) (e3 : Fin (k + 1) → FV ℝ)
    {rows rows' : List (FV ℝ × FV ℝ × FV ℝ × ℝ)} (h : rows.Perm rows') : histogram3d e1 e2 e3 rows = histogram3d e1 e2 e3 rows' := by
  unfold histogram3d
  split
  · rfl
  · congr 1
    funext i j l
    exact ((h.filter _).map _).sum_eq

/-- **C118** The four effective areas. -/
theorem C118_effective_area (t t' : EventTable ℝ) (hw : t.hasWeight = t'.hasWeight) (hp : t.hasParticle = t'.hasParticle)
    (ht : t.rows.Perm t'.rows) (events events' : List TrueEvent) (h : events.Perm events') (info : Info) {n m k p q : ℕ}
    (energyBins : Fin (n + 1) → FV ℝ) (fovBins : Fin (m + 1) → ℝ) (positionAngleBins : Fin (k + 1) → ℝ) (g : Simulations.Grid p q) (subpixels : ℕ) :
    effectiveAreaPerEnergy t info energyBins = effectiveAreaPerEnergy t' info energyBins ∧
    effectiveAreaPerEnergyAndFov events info energyBins fovBins = effectiveAreaPerEnergyAndFov events' info energyBins fovBins ∧
    effectiveArea3dPolar events info energyBins fovBins positionAngleBins = effectiveArea3dPolar events' info energyBins fovBins positionAngleBins ∧
    effectiveArea3dLonlat events info energyBins g subpixels = effectiveArea3dLonlat events' info energyBins g subpixels := by
  refine ⟨?_, ?_, ?_, ?_⟩
  · unfold effectiveAreaPerEnergy
    rw [C05_order_independent t t' _ hw hp ht]
  · unfold effectiveAreaPerEnergyAndFov
    rw [histogram2d_perm _ _ (h.map _)]
  · unfold effectiveArea3dPolar
    rw [histogram3d_perm _ _ _ (h.map _)]
  · unfold effectiveArea3dLonlat
    rw [histogram3d_perm _ _ _ (h.map _)]

/-- **C118** Energy dispersion, migration matrix and point spread function. -/
theorem C118_dispersion_psf {n m k : ℕ} (big : ℝ) (events events' : List RecoEvent) (h : events.Perm events') (trueEnergyBins : Fin (n + 1) → FV ℝ)
    (fovOffsetBins : Fin (k + 1) → FV ℝ) (migrationBins : Fin (m + 1) → FV ℝ) (sourceOffsetBins : Fin (m + 1) → ℝ) :
    energyDispersion big events trueEnergyBins fovOffsetBins migrationBins = energyDispersion big events' trueEnergyBins fovOffsetBins migrationBins ∧
    energyMigrationMatrix events trueEnergyBins migrationBins fovOffsetBins = energyMigrationMatrix events' trueEnergyBins migrationBins fovOffsetBins ∧
    psfTable big events trueEnergyBins sourceOffsetBins fovOffsetBins = psfTable big events' trueEnergyBins sourceOffsetBins fovOffsetBins := by
  refine ⟨?_, ?_, ?_⟩
  · unfold energyDispersion; rw [histogram3d_perm _ _ _ (h.map _)]
  · unfold energyMigrationMatrix; rw [histogram3d_perm _ _ _ (h.map _)]
  · unfold psfTable; rw [histogram3d_perm _ _ _ (h.map _)]

/-- **C118** Background rates. -/
theorem C118_background {n m p q : ℕ} (events events' : List BackgroundEvent) (h : events.Perm events') (recoEnergyBins : Fin (n + 1) → FV ℝ)
    (fovOffsetBins : Fin (m + 1) → ℝ) (lonBins : Fin (p + 1) → ℝ) (latBins : Fin (q + 1) → ℝ) (tObs : ℝ) :
    background2d events recoEnergyBins fovOffsetBins tObs = background2d events' recoEnergyBins fovOffsetBins tObs ∧
    background3dLonlat events recoEnergyBins lonBins latBins tObs = background3dLonlat events' recoEnergyBins lonBins latBins tObs := by
  constructor
  · unfold background2d; rw [histogram2d_perm _ _ (h.map _)]
  · unfold background3dLonlat; rw [histogram3d_perm _ _ _ (h.map _)]

/-! ## Benchmarks -/

/-- a bias or resolution function that does not look at the order of the errors -/
def OrderFree (f : List (FV ℝ) → Except Err (FV ℝ)) : Prop := ∀ g g' : List (FV ℝ), g.Perm g' → f g = f g'

/-- **C118** The bias and resolution functions of the package do not look at the order. -/
theorem C118_bias_functions : OrderFree Bench.nanmedian ∧ OrderFree Bench.interQuantileDistance ∧ OrderFree Bench.energyResolutionAbsolute68 := by
  refine ⟨fun g g' h => congrArg Except.ok (Np.medianVal_perm h), fun g g' h => ?_, fun g g' h => Np.nanquantile_perm (h.map _) _⟩
  unfold Bench.interQuantileDistance
  rw [Np.nanquantile_perm h, Np.nanquantile_perm h]

theorem biasStep_perm (biasFn resFn : List (FV ℝ) → Except Err (FV ℝ)) (h1 : OrderFree biasFn) (h2 : OrderFree resFn)
    {byBin byBin' : List (ℕ × FV ℝ)} (h : byBin.Perm byBin') : Bench.biasStep biasFn resFn byBin = Bench.biasStep biasFn resFn byBin' := by
  funext tab k
  have hg := (h.filter (fun e => e.1 = k)).map Prod.snd
  unfold Bench.biasStep
  simp only [hg.length_eq, h1 _ _ hg, h2 _ _ hg]

/-- **C118** `energy_bias_resolution`, for order-free bias and resolution functions. -/
theorem C118_energy_bias_resolution (biasFn resFn : List (FV ℝ) → Except Err (FV ℝ)) (h1 : OrderFree biasFn) (h2 : OrderFree resFn)
    (t : Bench.EnergyType) (events events' : List Bench.Event) (h : events.Perm events') (bins : List (FV ℝ)) :
    Bench.energyBiasResolution biasFn resFn t events bins = Bench.energyBiasResolution biasFn resFn t events' bins := by
  have hnil : events = [] ↔ events' = [] := by
    rw [← List.length_eq_zero_iff, ← List.length_eq_zero_iff, h.length_eq]
  unfold Bench.energyBiasResolution
  rw [calculateBinIndices_map, calculateBinIndices_map]
  by_cases he : events = []
  · rw [if_pos he, if_pos (hnil.mp he)]
  · rw [if_neg he, if_neg (fun hc => he (hnil.mpr hc))]
    by_cases hm : Np.monotonicity bins = 0
    · rw [if_pos hm, if_pos hm]
    · rw [if_neg hm, if_neg hm]
      have hb := byBin_perm bins (Bench.Event.energy t) Bench.Event.relError h
      simp only []
      rw [biasStep_perm biasFn resFn h1 h2 hb, groupedBy_perm (hb.map Prod.fst)]

theorem angStep_perm (qs : List ℝ) {byBin byBin' : List (ℕ × FV ℝ)} (h : byBin.Perm byBin') : Bench.angStep qs byBin = Bench.angStep qs byBin' := by
  funext tab k
  have hg := (h.filter (fun e => e.1 = k)).map Prod.snd
  unfold Bench.angStep
  simp only [hg.length_eq, Np.nanquantile_perm hg]

/-- **C118** `angular_resolution`. -/
theorem C118_angular_resolution (t : Bench.EnergyType) (qs : List ℝ) (events events' : List Bench.Event) (h : events.Perm events') (bins : List (FV ℝ)) :
    Bench.angularResolution t qs events bins = Bench.angularResolution t qs events' bins := by
  have hnil : events = [] ↔ events' = [] := by
    rw [← List.length_eq_zero_iff, ← List.length_eq_zero_iff, h.length_eq]
  unfold Bench.angularResolution
  rw [calculateBinIndices_map, calculateBinIndices_map]
  by_cases hm : Np.monotonicity bins = 0
  · rw [if_pos hm, if_pos hm]
  · rw [if_neg hm, if_neg hm]
    simp only []
    by_cases he : events = []
    · rw [if_pos he, if_pos (hnil.mp he)]
    · rw [if_neg he, if_neg (fun hc => he (hnil.mpr hc))]
      have hb := byBin_perm bins (Bench.Event.energy t) Bench.Event.theta h
      rw [angStep_perm qs hb, groupedBy_perm (hb.map Prod.fst)]

/-! ## Binned cuts -/

section masks
variable {K : Type*} [Field K] [LinearOrder K]

theorem npIndex_error {C : Type*} (l : List C) (i : ℤ) (e : Err) (h : npIndex l i = .error e) : e = .indexError := by
  unfold npIndex at h
  split at h
  · split at h
    · cases h
    · injection h with h; exact h.symm
  · split at h
    · split at h
      · cases h
      · injection h with h; exact h.symm
    · injection h with h; exact h.symm

theorem evalOne_error {C : Type*} (cut : List C) (op : FV K → C → Bool) (x : FV K × (ℤ × Bool)) (e : Err) (h : evalOne cut op x = .error e) :
    e = .indexError := by
  unfold evalOne at h
  split at h
  · split at h
    · cases h
    · rename_i x' hx
      injection h with h
      subst h
      exact npIndex_error _ _ _ hx
  · cases h

/-- the event does not raise -/
def evalGood {C : Type*} (cut : List C) (op : FV K → C → Bool) (x : FV K × (ℤ × Bool)) : Prop := ∃ b, evalOne cut op x = .ok b

/-- flag of one event -/
def evalFlag {C : Type*} (cut : List C) (op : FV K → C → Bool) (x : FV K × (ℤ × Bool)) : Bool :=
  match evalOne cut op x with
  | .ok b => b
  | .error _ => false

open Classical in
theorem evalByIndex_map {α C : Type*} (rows : List α) (v : α → FV K) (ix : α → ℤ × Bool) (table : CutTable K C) (op : FV K → C → Bool) :
    evaluateBinnedCutByIndex true (rows.map v) (rows.map ix) table op =
      if ∀ r ∈ rows, evalGood table.cut op (v r, ix r) then .ok (rows.map fun r => evalFlag table.cut op (v r, ix r)) else .error .indexError := by
  unfold evaluateBinnedCutByIndex
  simp only [Bool.not_true, Bool.false_eq_true, if_false]
  induction rows with
  | nil => rfl
  | cons r rows ih =>
    simp only [List.map_cons, List.zip_cons_cons, List.mapM_cons, ih]
    cases hr : evalOne table.cut op (v r, ix r) with
    | error e =>
      have hn : ¬ ∀ s ∈ r :: rows, evalGood table.cut op (v s, ix s) := by
        intro hc
        obtain ⟨b, hb⟩ := hc r List.mem_cons_self
        rw [hr] at hb; cases hb
      rw [if_neg hn, evalOne_error _ _ _ _ hr]; rfl
    | ok b =>
      have hf : evalFlag table.cut op (v r, ix r) = b := by unfold evalFlag; rw [hr]
      by_cases ha : ∀ s ∈ rows, evalGood table.cut op (v s, ix s)
      · rw [if_pos ha, if_pos, hf]
        · rfl
        · intro s hs
          rcases List.mem_cons.mp hs with rfl | hs
          · exact ⟨b, hr⟩
          · exact ha s hs
      · rw [if_neg ha, if_neg]
        · rfl
        · exact fun hc => ha fun s hs => hc s (List.mem_cons_of_mem _ hs)

/-- What `evaluate_binned_cut` does to a list of events (value, bin value), apart from the events themselves: it raises, or it has an
answer for the events. -/
theorem evalBinned_map {α C : Type*} (v x : α → FV K) (isQTable : Bool) (table : CutTable K C) (op : FV K → C → Bool) :
    (∃ e, ∀ rows : List α, evaluateBinnedCut isQTable (rows.map v) (rows.map x) table op = .error e) ∨
    (∃ (good : α → Prop) (flag : α → Bool), ∀ rows : List α,
      ((∀ r ∈ rows, good r) → evaluateBinnedCut isQTable (rows.map v) (rows.map x) table op = .ok (rows.map flag)) ∧
      ((¬ ∀ r ∈ rows, good r) → evaluateBinnedCut isQTable (rows.map v) (rows.map x) table op = .error .indexError)) := by
  unfold evaluateBinnedCut
  cases isQTable with
  | false => exact Or.inl ⟨.valueError, fun rows => rfl⟩
  | true =>
    cases hl : table.high.getLast? with
    | none => exact Or.inl ⟨.indexError, fun rows => rfl⟩
    | some hi =>
      by_cases hm : Np.monotonicity (table.low ++ [hi]) = 0
      · refine Or.inl ⟨.valueError, fun rows => ?_⟩
        simp only [Bool.not_true, Bool.false_eq_true, if_false]
        rw [calculateBinIndices_map, if_pos hm]
      · refine Or.inr ⟨fun r => evalGood table.cut op (v r, binIndex (table.low ++ [hi]) (x r)),
          fun r => evalFlag table.cut op (v r, binIndex (table.low ++ [hi]) (x r)), fun rows => ?_⟩
        simp only [Bool.not_true, Bool.false_eq_true, if_false]
        rw [calculateBinIndices_map, if_neg hm]
        simp only []
        rw [List.map_map, evalByIndex_map rows v (binIndex (table.low ++ [hi]) ∘ x) table op]
        exact ⟨fun h => if_pos h, fun h => if_neg h⟩

/-- **C118** `evaluate_binned_cut` judges each event on its own: reordering the events reorders the flags in the same way, and it raises for
one order iff it raises (the same exception) for the other. -/
theorem C118_evaluate_binned_cut {C : Type*} (isQTable : Bool) (table : CutTable K C) (op : FV K → C → Bool)
    (evs evs' : List (FV K × FV K)) (h : evs.Perm evs') :
    (∃ flag : FV K × FV K → Bool,
      evaluateBinnedCut isQTable (evs.map Prod.fst) (evs.map Prod.snd) table op = .ok (evs.map flag) ∧
      evaluateBinnedCut isQTable (evs'.map Prod.fst) (evs'.map Prod.snd) table op = .ok (evs'.map flag)) ∨
    (∃ e, evaluateBinnedCut isQTable (evs.map Prod.fst) (evs.map Prod.snd) table op = .error e ∧
      evaluateBinnedCut isQTable (evs'.map Prod.fst) (evs'.map Prod.snd) table op = .error e) := by
  rcases evalBinned_map (α := FV K × FV K) Prod.fst Prod.snd isQTable table op with ⟨e, he⟩ | ⟨good, flag, hf⟩
  · exact Or.inr ⟨e, he _, he _⟩
  · by_cases hg : ∀ r ∈ evs, good r
    · exact Or.inl ⟨flag, (hf evs).1 hg, (hf evs').1 fun r hr => hg r (h.mem_iff.mpr hr)⟩
    · exact Or.inr ⟨.indexError, (hf evs).2 hg, (hf evs').2 fun hc => hg fun r hr => hc r (h.mem_iff.mp hr)⟩
end masks

/-! ## Sensitivity and cut optimization -/

theorem countNames_perm (hasParticle : Bool) {rows rows' : List (Event ℝ)} (h : rows.Perm rows') :
    countNames hasParticle rows = countNames hasParticle rows' := by
  have h3 : groupKeys rows = groupKeys rows' := by
    unfold groupKeys
    apply List.Perm.eq_of_pairwise' (r := (· ≤ ·))
    · exact List.pairwise_insertionSort _ _
    · exact List.pairwise_insertionSort _ _
    · exact ((List.perm_insertionSort _ _).trans (h.map _).dedup).trans (List.perm_insertionSort _ _).symm
  unfold countNames
  rw [h3, h.length_eq]

theorem histTable_perm (hasWeight hasParticle : Bool) {rows rows' : List (Event ℝ)} (h : rows.Perm rows') (bins : List (FV ℝ)) :
    histTable hasWeight hasParticle rows bins = histTable hasWeight hasParticle rows' bins := by
  unfold histTable
  rw [C05_order_independent ⟨hasWeight, hasParticle, rows⟩ ⟨hasWeight, hasParticle, rows'⟩ bins rfl rfl h, countNames_perm hasParticle h]

/-- **C118** `estimate_background`. -/
theorem C118_estimate_background (hasWeight hasParticle : Bool) (events events' : List BgEvent) (h : events.Perm events') (bins : List (FV ℝ))
    (thetaCuts : List (FV ℝ × FV ℝ)) (alpha offMin offMax : FV ℝ) :
    estimateBackground hasWeight hasParticle events bins thetaCuts alpha offMin offMax =
    estimateBackground hasWeight hasParticle events' bins thetaCuts alpha offMin offMax := by
  unfold estimateBackground
  simp only []
  rw [histTable_perm hasWeight hasParticle ((h.filter _).map _)]

theorem select_map {α : Type} (rows : List α) (p : α → Bool) : select rows (rows.map p) = rows.filter p := by
  unfold select
  induction rows with
  | nil => rfl
  | cons a l ih =>
    simp only [List.map_cons, List.zip_cons_cons, List.filter_cons]
    cases p a <;> simp [ih]

theorem andMask_map {α : Type} (rows : List α) (p q : α → Bool) : andMask (rows.map p) (rows.map q) = rows.map fun a => p a && q a := by
  unfold andMask
  induction rows with
  | nil => rfl
  | cons a l ih => simp only [List.map_cons, List.zipWith_cons_cons, ih]

/-- the same inputs with other event lists -/
def withRows (c : Ctx) (s b : List Ev) : Ctx :=
  { c with signal := { c.signal with rows := s }, background := { c.background with rows := b } }

theorem sensitivityOf_perm (c : Ctx) {s b s' b' : List Ev} (hs : s.Perm s') (hb : b.Perm b') (p q : Ev → Bool) (t : CutTable ℝ (FV ℝ)) :
    sensitivityOf (withRows c s b) (s.map p) (b.map q) t = sensitivityOf (withRows c s' b') (s'.map p) (b'.map q) t := by
  unfold sensitivityOf
  simp only [withRows]
  rw [select_map, select_map, select_map, select_map,
    histTable_perm c.signal.hasWeight c.signal.hasParticle ((hs.filter p).map Ev.toEvent),
    C118_estimate_background c.background.hasWeight c.background.hasParticle _ _ ((hb.filter q).map Ev.toBg)]

theorem forall_perm {α : Type*} {l l' : List α} (h : l.Perm l') (P : α → Prop) : (∀ r ∈ l, P r) ↔ ∀ r ∈ l', P r :=
  ⟨fun hc r hr => hc r (h.mem_iff.mpr hr), fun hc r hr => hc r (h.mem_iff.mp hr)⟩

theorem scanOne_perm (c : Ctx) {s b s' b' : List Ev} (hs : s.Perm s') (hb : b.Perm b') (ix : Ev → ℤ × Bool) (m : FV ℝ) (tc gc : CutTable ℝ (FV ℝ)) :
    scanOne (withRows c s b) (s.map ix) (b.map ix) m tc gc = scanOne (withRows c s' b') (s'.map ix) (b'.map ix) m tc gc := by
  classical
  unfold scanOne
  have hS : ∀ l k : List Ev, (withRows c l k).signal.rows = l := fun _ _ => rfl
  have hB : ∀ l k : List Ev, (withRows c l k).background.rows = k := fun _ _ => rfl
  simp only [hS, hB, evalByIndex_map]
  simp only [forall_perm hs, forall_perm hb]
  by_cases g1 : ∀ r ∈ s', evalGood tc.cut FV.le (r.theta, ix r)
  swap
  · rw [if_neg g1, if_neg g1]
  rw [if_pos g1, if_pos g1]
  simp only []
  by_cases g2 : ∀ r ∈ s', evalGood gc.cut FV.ge (r.gh, ix r)
  swap
  · rw [if_neg g2, if_neg g2]
  rw [if_pos g2, if_pos g2]
  simp only []
  by_cases g3 : ∀ r ∈ b', evalGood gc.cut FV.ge (r.gh, ix r)
  swap
  · rw [if_neg g3, if_neg g3]
  rw [if_pos g3, if_pos g3]
  simp only [andMask_map]
  exact sensitivityOf_perm c hs hb _ _ _

theorem maximum_fin (x y : ℝ) : FV.maximum (.fin x) (.fin y) = .fin (max x y) := by
  unfold FV.maximum
  simp only [FV.isNan, FV.lt_fin, Bool.false_eq_true, if_false, decide_eq_true_eq]
  split
  · rename_i h; rw [max_eq_right h.le]
  · rename_i h; rw [max_eq_left (not_lt.mp h)]

theorem minimum_fin (x y : ℝ) : FV.minimum (.fin x) (.fin y) = .fin (min x y) := by
  unfold FV.minimum
  simp only [FV.isNan, FV.lt_fin, Bool.false_eq_true, if_false, decide_eq_true_eq]
  split
  · rename_i h; rw [min_eq_right h.le]
  · rename_i h; rw [min_eq_left (not_lt.mp h)]

theorem maximum_comm (a b : FV ℝ) : FV.maximum a b = FV.maximum b a := by
  cases a <;> cases b <;> first | rfl | (rw [maximum_fin, maximum_fin, max_comm])

theorem minimum_comm (a b : FV ℝ) : FV.minimum a b = FV.minimum b a := by
  cases a <;> cases b <;> first | rfl | (rw [minimum_fin, minimum_fin, min_comm])

theorem maximum_right_comm (a b c : FV ℝ) : FV.maximum (FV.maximum a b) c = FV.maximum (FV.maximum a c) b := by
  cases a <;> cases b <;> cases c <;> first
    | rfl
    | (rw [maximum_fin, maximum_fin, maximum_fin, maximum_fin, max_right_comm])
    | (rw [maximum_fin]; rfl)
    | (show FV.maximum _ _ = FV.maximum _ _; rw [maximum_comm (.fin _) .ninf]; rw [maximum_fin]; exact maximum_fin _ _)
    | (show FV.maximum _ _ = FV.maximum _ _; rw [maximum_fin]; exact (maximum_fin _ _).symm)
    | (show FV.maximum (.fin _) (.fin _) = FV.maximum (.fin _) (.fin _); exact maximum_comm _ _)

theorem minimum_right_comm (a b c : FV ℝ) : FV.minimum (FV.minimum a b) c = FV.minimum (FV.minimum a c) b := by
  cases a <;> cases b <;> cases c <;> first
    | rfl
    | (rw [minimum_fin, minimum_fin, minimum_fin, minimum_fin, min_right_comm])
    | (rw [minimum_fin]; rfl)
    | (show FV.minimum _ _ = FV.minimum _ _; rw [minimum_comm (.fin _) .pinf]; rw [minimum_fin]; exact minimum_fin _ _)
    | (show FV.minimum _ _ = FV.minimum _ _; rw [minimum_fin]; exact (minimum_fin _ _).symm)
    | (show FV.minimum (.fin _) (.fin _) = FV.minimum (.fin _) (.fin _); exact minimum_comm _ _)

theorem npMax_perm {l l' : List (FV ℝ)} (h : l.Perm l') : npMax l = npMax l' := by
  have : RightCommutative (FV.maximum (K := ℝ)) := ⟨maximum_right_comm⟩
  induction h with
  | nil => rfl
  | cons x h _ => simp only [npMax]; rw [h.foldl_eq]
  | swap x y l => simp only [npMax, List.foldl_cons]; rw [maximum_comm]
  | trans _ _ h1 h2 => exact h1.trans h2

theorem npMin_perm {l l' : List (FV ℝ)} (h : l.Perm l') : npMin l = npMin l' := by
  have : RightCommutative (FV.minimum (K := ℝ)) := ⟨minimum_right_comm⟩
  induction h with
  | nil => rfl
  | cons x h _ => simp only [npMin]; rw [h.foldl_eq]
  | swap x y l => simp only [npMin, List.foldl_cons]; rw [minimum_comm]
  | trans _ _ h1 h2 => exact h1.trans h2

theorem ghGrid_perm (c : Ctx) (g : CutOpt.Grid) {s s' : List Ev} (b b' : List Ev) (hs : s.Perm s') (fill m : FV ℝ) :
    ghGrid (withRows c s b) g fill m = ghGrid (withRows c s' b') g fill m :=
  C118_percentile_cuts _ _ ((hs.filter _).map _) _ _ _ _ _ _

theorem thetaGrid_perm (c : Ctx) (g : CutOpt.Grid) {s s' : List Ev} (b b' : List Ev) (hs : s.Perm s') (m : FV ℝ) :
    thetaGrid (withRows c s b) g m = thetaGrid (withRows c s' b') g m :=
  C118_percentile_cuts _ _ ((hs.filter _).map _) _ _ _ _ _ _

theorem scanMult_perm (c : Ctx) (g : CutOpt.Grid) {s b s' b' : List Ev} (hs : s.Perm s') (hb : b.Perm b') (fill : FV ℝ) (ix : Ev → ℤ × Bool) :
    scanMult (withRows c s b) g fill (s.map ix) (b.map ix) = scanMult (withRows c s' b') g fill (s'.map ix) (b'.map ix) := by
  funext mm
  unfold scanMult
  rw [ghGrid_perm c g b b' hs fill mm.1, thetaGrid_perm c g b b' hs mm.1]
  simp only [scanOne_perm c hs hb ix]

/-- **C118** `optimize_cuts` returns the same cuts, efficiencies and sensitivity table (or raises the same exception). -/
theorem C118_optimize_cuts (c c' : Ctx) (g : CutOpt.Grid) (s b : List Ev) (hs : c.signal.rows.Perm s) (hb : c.background.rows.Perm b)
    (hc : c' = { c with signal := { c.signal with rows := s }, background := { c.background with rows := b } }) :
    optimizeCuts c' g = optimizeCuts c g := by
  have hc1 : c' = withRows c s b := hc
  have hc2 : c = withRows c c.signal.rows c.background.rows := rfl
  rw [hc1]
  conv_rhs => rw [hc2]
  unfold optimizeCuts
  have hS : ∀ l k : List Ev, (withRows c l k).signal.rows = l := fun _ _ => rfl
  have hB : ∀ l k : List Ev, (withRows c l k).background.rows = k := fun _ _ => rfl
  have hbin : ∀ l k : List Ev, (withRows c l k).bins = c.bins := fun _ _ => rfl
  simp only [hS, hB, hbin, calculateBinIndices_map]
  rw [npMax_perm (hs.symm.map Ev.gh)]
  by_cases hm : Np.monotonicity c.bins = 0
  · simp only [if_pos hm]
    rfl
  · simp only [if_neg hm, List.map_map]
    congr 1
    funext fill
    show (do
      let grids ← g.mults.zipIdx.mapM (scanMult (withRows c s b) g fill (s.map (binIndex c.bins ∘ Ev.energy)) (b.map (binIndex c.bins ∘ Ev.energy)))
      _) = _
    rw [scanMult_perm c g hs.symm hb.symm fill]
    rfl

theorem scanGh_perm (c : Ctx) {s b s' b' : List Ev} (hs : s.Perm s') (hb : b.Perm b') (thetaCuts : CutTable ℝ (FV ℝ)) (op : FV ℝ → FV ℝ → Bool)
    (p : Ev → Bool) (gc : CutTable ℝ (FV ℝ)) :
    scanGh (withRows c s b) thetaCuts op (s.map p) gc = scanGh (withRows c s' b') thetaCuts op (s'.map p) gc := by
  unfold scanGh
  have hS : ∀ l k : List Ev, (withRows c l k).signal.rows = l := fun _ _ => rfl
  have hB : ∀ l k : List Ev, (withRows c l k).background.rows = k := fun _ _ => rfl
  simp only [hS, hB]
  rcases evalBinned_map Ev.gh Ev.energy true gc op with ⟨e, he⟩ | ⟨good, flag, hf⟩
  · rw [he s, he s']
  · by_cases g1 : ∀ r ∈ s, good r
    · rw [(hf s).1 g1, (hf s').1 ((forall_perm hs good).mp g1)]
      simp only []
      by_cases g2 : ∀ r ∈ b, good r
      · rw [(hf b).1 g2, (hf b').1 ((forall_perm hb good).mp g2)]
        simp only [andMask_map]
        exact sensitivityOf_perm c hs hb _ _ _
      · rw [(hf b).2 g2, (hf b').2 (fun h => g2 ((forall_perm hb good).mpr h))]
    · rw [(hf s).2 g1, (hf s').2 (fun h => g1 ((forall_perm hs good).mpr h))]

/-- **C118** `optimize_gh_cut` returns the same cuts, efficiencies and sensitivity table (or raises the same exception). -/
theorem C118_optimize_gh_cut (c c' : Ctx) (ghEff : List ℝ) (thetaCuts : CutTable ℝ (FV ℝ)) (op : FV ℝ → FV ℝ → Bool)
    (s b : List Ev) (hs : c.signal.rows.Perm s) (hb : c.background.rows.Perm b)
    (hc : c' = { c with signal := { c.signal with rows := s }, background := { c.background with rows := b } }) :
    optimizeGhCut c' ghEff thetaCuts op = optimizeGhCut c ghEff thetaCuts op := by
  have hc1 : c' = withRows c s b := hc
  have hc2 : c = withRows c c.signal.rows c.background.rows := rfl
  rw [hc1]
  conv_rhs => rw [hc2]
  unfold optimizeGhCut
  have hS : ∀ l k : List Ev, (withRows c l k).signal.rows = l := fun _ _ => rfl
  have hbin : ∀ l k : List Ev, (withRows c l k).bins = c.bins := fun _ _ => rfl
  have hset : ghScanSetup (withRows c s b) ghEff op = ghScanSetup (withRows c c.signal.rows c.background.rows) ghEff op := by
    unfold ghScanSetup
    simp only [hS]
    rw [npMin_perm (hs.symm.map Ev.gh), npMax_perm (hs.symm.map Ev.gh)]
  have hpc : ∀ setup : List ℝ × FV ℝ, percentileCuts (s.map fun e => (e.gh, e.energy)) c.bins setup.2 setup.1 none none minEventsDefault =
      percentileCuts (c.signal.rows.map fun e => (e.gh, e.energy)) c.bins setup.2 setup.1 none none minEventsDefault :=
    fun setup => C118_percentile_cuts _ _ (hs.symm.map _) _ _ _ _ _ _
  simp only [hS, hbin, hset, hpc]
  rcases evalBinned_map Ev.theta Ev.energy true thetaCuts FV.le with ⟨e, he⟩ | ⟨good, flag, hf⟩
  · rw [he s, he c.signal.rows]
    rfl
  · by_cases g1 : ∀ r ∈ s, good r
    · rw [(hf s).1 g1, (hf c.signal.rows).1 ((forall_perm hs good).mpr g1)]
      have key : ∀ gc, scanGh (withRows c s b) thetaCuts op (s.map flag) gc =
          scanGh (withRows c c.signal.rows c.background.rows) thetaCuts op (c.signal.rows.map flag) gc :=
        fun gc => scanGh_perm c hs.symm hb.symm thetaCuts op flag gc
      simp only [bind, Except.bind, key]
    · rw [(hf s).2 g1, (hf c.signal.rows).2 (fun h => g1 ((forall_perm hs good).mp h))]
      rfl

/-! ## Satisfiability -/

example : ([(FV.fin (1 : ℝ), FV.fin (2 : ℝ)), (.nan, .fin 3), (.fin 5, .pinf)]).Perm [(.nan, .fin 3), (.fin 5, .pinf), (.fin 1, .fin 2)] := by
  refine (List.Perm.swap _ _ _).trans ?_
  exact List.Perm.cons _ (List.Perm.swap _ _ _)

end Pyirf.Pipeline
