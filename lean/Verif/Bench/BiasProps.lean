import Verif.Bench.Lemmas

/-! # Property C45: energy bias and resolution -/
set_option linter.unusedSectionVars false
set_option linter.unusedSimpArgs false

namespace Pyirf.Bench
open Pyirf Pyirf.Np Pyirf.Binning Pyirf.Cuts

/-! ## Specification -/

/-- The events whose energy (true or reconstructed) lies in bin `i`. -/
noncomputable def eventsOf (t : EnergyType) (bins : List (FV ℝ)) (i : ℕ) (events : List Event) : List Event :=
  open Classical in events.filter fun e => decide (InBin bins i (match t with | .true => e.trueEnergy | .reco => e.recoEnergy))

/-- The finite ones among some values. -/
def numbers (xs : List (FV ℝ)) : List ℝ := xs.filterMap fun v => match v with | .fin x => some x | _ => none

/-! ## Lemmas -/

theorem normLower_nonneg : 0 ≤ normLowerSigma := ProbabilityTheory.cdf_nonneg _ _
theorem normUpper_le_one : normUpperSigma ≤ 1 := ProbabilityTheory.cdf_le_one _ _
theorem norm_le : normLowerSigma ≤ normUpperSigma := ProbabilityTheory.monotone_cdf _ (by norm_num)
theorem oneSigma_nonneg : 0 ≤ oneSigmaCoverage := sub_nonneg.mpr norm_le
theorem oneSigma_le_one : oneSigmaCoverage ≤ 1 := by
  unfold oneSigmaCoverage; have := normLower_nonneg; have := normUpper_le_one; linarith

theorem group_errPairs (t : EnergyType) (bins : List (FV ℝ)) (i : ℕ) (events : List Event) :
    group bins (errPairs t events) i = (eventsOf t bins i events).map Event.relError := by
  unfold group errPairs eventsOf
  rw [List.filter_map, List.map_map]
  congr 1

theorem group_thetaPairs (t : EnergyType) (bins : List (FV ℝ)) (i : ℕ) (events : List Event) :
    group bins (thetaPairs t events) i = (eventsOf t bins i events).map Event.theta := by
  unfold group thetaPairs eventsOf
  rw [List.filter_map, List.map_map]
  congr 1

theorem dropNan_numbers (xs : List (FV ℝ)) : dropNan xs = numbers xs := by
  unfold dropNan numbers
  apply List.filterMap_congr
  intro v _
  cases v <;> rfl

/-- value of the inter-quantile distance -/
noncomputable def iqdVal (g : List (FV ℝ)) : FV ℝ := .fin 0.5 * (pctVal (normUpperSigma * 100) g - pctVal (normLowerSigma * 100) g)

theorem iqd_ok (g : List (FV ℝ)) : interQuantileDistance g = .ok (iqdVal g) := by
  unfold interQuantileDistance iqdVal
  rw [nanquantile_ok (normLower_nonneg.trans norm_le) normUpper_le_one, nanquantile_ok normLower_nonneg (norm_le.trans normUpper_le_one)]

theorem median_ok (g : List (FV ℝ)) : nanmedian g = .ok (medianVal g) := rfl

theorem median_pct {g : List (FV ℝ)} (hi : NoInf g) : medianVal g = pctVal (1 / 2 * 100) g := by
  rw [medianVal_noInf hi]; unfold pctVal; congr 1; norm_num

theorem pctVal_spec {p : ℝ} (h0 : 0 ≤ p) (h1 : p ≤ 100) {g : List (FV ℝ)} (hi : NoInf g) (hg : numbers g ≠ []) :
    ∃ v, pctVal p g = .fin v ∧ IsPercentile (numbers g) p v := by
  rw [pctVal_noInf h0 h1 hi, dropNan_numbers, if_neg hg]
  exact ⟨_, rfl, isPercentile_of_quantileSorted hg h0 h1⟩

theorem pctVal_nan {p : ℝ} {g : List (FV ℝ)} (hi : NoInf g) (hg : numbers g = []) : pctVal p g = .nan := by
  unfold pctVal quantileVal
  rw [sortNonNan_noInf hi, dropNan_numbers, hg]
  rfl

theorem isPercentile_mono {xs : List ℝ} {p p' v v' : ℝ} (h0 : 0 ≤ p) (hp : p ≤ p') (h1 : p' ≤ 100) (hx : xs ≠ []) (hv : IsPercentile xs p v)
    (hv' : IsPercentile xs p' v') : v ≤ v' := by
  rw [isPercentile_unique hv (isPercentile_of_quantileSorted hx h0 (hp.trans h1)),
    isPercentile_unique hv' (isPercentile_of_quantileSorted hx (h0.trans hp) h1)]
  refine Np.quantileSorted_mono (List.pairwise_insertionSort _ _) ?_ (by positivity) (by linarith) (by linarith)
  intro h
  have := List.perm_insertionSort (· ≤ ·) xs
  rw [h] at this
  exact hx (List.perm_nil.mp this.symm)

theorem isPercentile_affine {xs : List ℝ} {p v c b : ℝ} (hc : 0 < c) (hv : IsPercentile xs p v) :
    IsPercentile (xs.map fun x => c * x + b) p (c * v + b) := by
  obtain ⟨s, s1, s2, i, f, f0, f1, fe, hi, rfl⟩ := hv
  refine ⟨s.map fun x => c * x + b, s1.map _, ?_, i, f, f0, f1, by simpa using fe, by simpa using hi, ?_⟩
  · exact List.Pairwise.map _ (fun a b' h => by have := mul_le_mul_of_nonneg_left h hc.le; linarith) s2
  · rcases Nat.lt_or_ge (i + 1) s.length with h | h
    · simp [List.getD_eq_getElem?_getD, h]; ring
    · simp [List.getD_eq_getElem?_getD, h]

theorem isPercentile_const {xs : List ℝ} {p v a : ℝ} (hx : ∀ x ∈ xs, x = a) (hv : IsPercentile xs p v) : v = a := by
  obtain ⟨s, s1, s2, i, f, f0, f1, fe, hi, rfl⟩ := hv
  have ha : ∀ x ∈ s, x = a := fun x h => hx x (s1.mem_iff.mp h)
  rw [ha _ (List.getElem_mem hi)]
  rcases Nat.lt_or_ge (i + 1) s.length with h | h
  · have := ha _ (List.getElem_mem h)
    simp [List.getD_eq_getElem?_getD, h, this]
  · simp [List.getD_eq_getElem?_getD, h]

/-! ## C45 -/

/-- **C45** Rows of the table. For increasing edges, any two functions that return a value on every group, either kind of
energy, and either no events or some event in the bins: the call succeeds, row `i` has the edges and the centre of bin `i`, `n_events` is the number of events in the bin; bias and
resolution are NaN if there are none, and otherwise the two functions applied to the relative errors `reco/true - 1` of exactly these
events. -/
theorem C45_rows (bf rf : List (FV ℝ) → Except Err (FV ℝ)) (hbf : ∀ g, ∃ v, bf g = .ok v) (hrf : ∀ g, ∃ v, rf g = .ok v) (t : EnergyType)
    (events : List Event) (bins : List (FV ℝ)) (hb : Increasing bins) (hl : 0 < bins.length)
    (hin : EmptyOrInside t bins events) :
    ∃ tab, energyBiasResolution bf rf t events bins = .ok tab ∧ tab.low = bins.dropLast ∧ tab.high = bins.tail ∧ tab.center = binCenter bins ∧
      ∃ (hn : tab.nEvents.length = bins.length - 1) (hbi : tab.bias.length = bins.length - 1) (hre : tab.resolution.length = bins.length - 1),
      ∀ (i : ℕ) (hi : i < bins.length - 1),
        tab.nEvents[i] = (eventsOf t bins i events).length ∧
        (eventsOf t bins i events = [] → tab.bias[i] = .nan ∧ tab.resolution[i] = .nan) ∧
        (eventsOf t bins i events ≠ [] →
          bf ((eventsOf t bins i events).map fun e => e.recoEnergy / e.trueEnergy - .fin 1) = .ok tab.bias[i] ∧
          rf ((eventsOf t bins i events).map fun e => e.recoEnergy / e.trueEnergy - .fin 1) = .ok tab.resolution[i]) := by
  choose bv hbv using hbf
  choose rv hrv using hrf
  refine ⟨_, energyBiasResolution_eq bf rf bv rv hbv hrv t events hb hl hin, rfl, rfl, rfl, by simp, by simp, by simp, ?_⟩
  intro i hi
  simp only [List.getElem_map, List.getElem_range, group_errPairs, List.map_eq_nil_iff, List.length_map]
  refine ⟨trivial, ?_, ?_⟩
  · intro h; simp [h]
  · intro h
    simp only [h, if_false]
    exact ⟨hbv _, hrv _⟩

/-- **C45** (deviation) Events of which none lies in the bins are not treated like no events: instead of a table of NaN the call raises IndexError. -/
theorem C45_none_in_bins (bf rf : List (FV ℝ) → Except Err (FV ℝ)) (t : EnergyType) (events : List Event) (bins : List (FV ℝ)) (hb : Increasing bins)
    (hl : 0 < bins.length) (hne : events ≠ []) (hout : ∀ i, eventsOf t bins i events = []) :
    energyBiasResolution bf rf t events bins = .error .indexError := by
  refine energyBiasResolution_none bf rf t events hb hl hne ?_
  rintro ⟨e, he, i, hi⟩
  have : e ∈ eventsOf t bins i events := List.mem_filter.mpr ⟨he, decide_eq_true hi⟩
  rw [hout i] at this
  exact absurd this (by simp)

/-- **C45** The default functions: the bias is the median of the bin's (non-NaN) relative errors and the resolution half the distance
of their quantiles `Φ(1)` and `Φ(-1)` of the standard normal distribution, in each bin without infinite relative errors. -/
theorem C45_default_functions (t : EnergyType) (events : List Event) (bins : List (FV ℝ)) (hb : Increasing bins) (hl : 0 < bins.length)
    (hin : EmptyOrInside t bins events) :
    ∃ tab, energyBiasResolution nanmedian interQuantileDistance t events bins = .ok tab ∧
      ∃ (hbi : tab.bias.length = bins.length - 1) (hre : tab.resolution.length = bins.length - 1), ∀ (i : ℕ) (hi : i < bins.length - 1),
        let xs := numbers ((eventsOf t bins i events).map Event.relError)
        NoInf ((eventsOf t bins i events).map Event.relError) →
        (xs = [] → tab.bias[i] = .nan ∧ tab.resolution[i] = .nan) ∧
        (xs ≠ [] → ∃ m lo hi,
          IsPercentile xs 50 m ∧ IsPercentile xs (100 * ProbabilityTheory.cdf (ProbabilityTheory.gaussianReal 0 1) (-1)) lo ∧
          IsPercentile xs (100 * ProbabilityTheory.cdf (ProbabilityTheory.gaussianReal 0 1) 1) hi ∧
          tab.bias[i] = .fin m ∧ tab.resolution[i] = .fin ((hi - lo) / 2) ∧ 0 ≤ (hi - lo) / 2) := by
  refine ⟨_, energyBiasResolution_eq nanmedian interQuantileDistance _ _ median_ok iqd_ok t events hb hl hin, by simp, by simp, ?_⟩
  intro i hi
  simp only [List.getElem_map, List.getElem_range, group_errPairs, List.map_eq_nil_iff]
  intro hni
  rw [median_pct hni]
  refine ⟨?_, ?_⟩
  · intro h
    rw [pctVal_nan hni h]
    unfold iqdVal
    rw [pctVal_nan hni h]
    simp
  · intro h
    have hne : eventsOf t bins i events ≠ [] := by
      intro he; rw [he] at h; exact h rfl
    simp only [hne, if_false]
    obtain ⟨m, e1, h1⟩ := pctVal_spec (p := 1 / 2 * 100) (by norm_num) (by norm_num) hni h
    have l0 := normLower_nonneg
    have l1 := norm_le
    have l2 := normUpper_le_one
    obtain ⟨lo, e2, h2⟩ := pctVal_spec (p := normLowerSigma * 100) (by positivity) (by linarith) hni h
    obtain ⟨up, e3, h3⟩ := pctVal_spec (p := normUpperSigma * 100) (by linarith) (by linarith) hni h
    refine ⟨m, lo, up, by rwa [show (50:ℝ) = 1 / 2 * 100 by norm_num], by rw [mul_comm]; exact h2, by rw [mul_comm]; exact h3, e1, ?_, ?_⟩
    · unfold iqdVal
      rw [e2, e3]
      simp only [FV.fin_sub_fin, FV.fin_mul_fin]
      congr 1; ring
    · have := isPercentile_mono (by positivity) (by linarith) (by linarith) h h2 h3
      linarith

/-- **C45** If all (non-NaN) relative errors of a bin agree, the bias is their common value and the resolution is zero. -/
theorem C45_all_agree (t : EnergyType) (events : List Event) (bins : List (FV ℝ)) (hb : Increasing bins) (hl : 0 < bins.length) (i : ℕ)
    (hi : i < bins.length - 1) (a : ℝ) (hne : eventsOf t bins i events ≠ []) (ha : ∀ e ∈ eventsOf t bins i events, e.relError = .fin a) :
    ∃ tab, energyBiasResolution nanmedian interQuantileDistance t events bins = .ok tab ∧ tab.bias[i]? = some (.fin a) ∧
      tab.resolution[i]? = some (.fin 0) := by
  have hnum : numbers ((eventsOf t bins i events).map Event.relError) = (eventsOf t bins i events).map fun _ => a := by
    unfold numbers
    rw [List.filterMap_map, ← List.filterMap_eq_map]
    apply List.filterMap_congr
    intro e he
    simp [Function.comp, ha e he]
  have hin : EmptyOrInside t bins events := by
    obtain ⟨e, he⟩ := List.exists_mem_of_ne_nil _ hne
    obtain ⟨he, hi⟩ := List.mem_filter.mp he
    exact Or.inr ⟨e, he, i, of_decide_eq_true hi⟩
  obtain ⟨tab, h1, h2, h3, h4⟩ := C45_default_functions t events bins hb hl hin
  obtain ⟨m, lo, up, a1, a2, a3, a4, a5, _⟩ := (h4 i hi (by
    intro v hv
    obtain ⟨e, he, rfl⟩ := List.mem_map.mp hv
    rw [ha e he]; simp)).2 (by rw [hnum]; simpa using hne)
  rw [hnum] at a1 a2 a3
  have hc : ∀ x ∈ (eventsOf t bins i events).map fun _ => a, x = a := by simp
  have b1 := isPercentile_const hc a1
  have b2 := isPercentile_const hc a2
  have b3 := isPercentile_const hc a3
  subst b1; subst b2
  refine ⟨tab, h1, ?_, ?_⟩
  · rw [List.getElem?_eq_getElem (by omega), a4]
  · rw [List.getElem?_eq_getElem (by omega), a5, b3]; simp

/-- The same events with every reconstructed energy multiplied by `c`. -/
noncomputable def rescale (c : ℝ) (events : List Event) : List Event := events.map fun e => { e with recoEnergy := .fin c * e.recoEnergy }

theorem eventsOf_rescale (c : ℝ) (bins : List (FV ℝ)) (i : ℕ) (events : List Event) :
    eventsOf .true bins i (rescale c events) = rescale c (eventsOf .true bins i events) := by
  unfold eventsOf rescale
  rw [List.filter_map]
  rfl

/-- **C45** Rescaling every reconstructed energy by `c > 0` (true-energy binning, finite nonzero true energies, reconstructed energies finite or
NaN) maps the bias of every row to `c*(bias + 1) - 1` and the resolution to `c*resolution`. -/
theorem C45_rescale (c : ℝ) (hc : 0 < c) (events : List Event) (bins : List (FV ℝ)) (hb : Increasing bins) (hl : 0 < bins.length)
    (hin : EmptyOrInside .true bins events)
    (hev : ∀ e ∈ events, (∃ a, a ≠ 0 ∧ e.trueEnergy = .fin a) ∧ (e.recoEnergy = .nan ∨ ∃ r, e.recoEnergy = .fin r)) :
    ∃ tab tab', energyBiasResolution nanmedian interQuantileDistance .true events bins = .ok tab ∧
      energyBiasResolution nanmedian interQuantileDistance .true (rescale c events) bins = .ok tab' ∧
      tab'.nEvents = tab.nEvents ∧
      tab'.bias = tab.bias.map (fun b => .fin c * (b + .fin 1) - .fin 1) ∧ tab'.resolution = tab.resolution.map (fun r => .fin c * r) := by
  have hin' : EmptyOrInside .true bins (rescale c events) := by
    rcases hin with rfl | ⟨e, he, i, hi⟩
    · exact Or.inl rfl
    · exact Or.inr ⟨_, List.mem_map_of_mem he, i, hi⟩
  obtain ⟨tab, h1, h2, h3, h4⟩ := C45_default_functions .true events bins hb hl hin
  obtain ⟨tab', h1', h2', h3', h4'⟩ := C45_default_functions .true (rescale c events) bins hb hl hin'
  have hrow : ∀ (i : ℕ), numbers ((eventsOf .true bins i (rescale c events)).map Event.relError) =
      (numbers ((eventsOf .true bins i events).map Event.relError)).map fun x => c * x + (c - 1) := by
    intro i
    rw [eventsOf_rescale]
    have hsub : ∀ e ∈ eventsOf .true bins i events, e ∈ events := fun e he => List.mem_of_mem_filter he
    revert hsub
    generalize eventsOf .true bins i events = l
    intro hsub
    induction l with
    | nil => rfl
    | cons e l ih =>
      have ih := ih (fun x hx => hsub x (List.mem_cons_of_mem _ hx))
      obtain ⟨⟨a, ha, hta⟩, hr⟩ := hev e (hsub e (by simp))
      unfold numbers rescale at ih ⊢
      simp only [List.map_cons, List.filterMap_cons]
      rcases hr with hr | ⟨r, hr⟩
      · simp only [Event.relError, hr, hta, FV.mul_nan, FV.nan_div, FV.nan_sub]
        exact ih
      · simp only [Event.relError, hr, hta, FV.fin_mul_fin, FV.fin_div_fin _ _ ha, FV.fin_sub_fin, List.map_cons]
        rw [List.cons.injEq]
        refine ⟨by ring, ih⟩
  have hni : ∀ i, NoInf ((eventsOf .true bins i events).map Event.relError) := by
    intro i v hv
    obtain ⟨e, he, rfl⟩ := List.mem_map.mp hv
    obtain ⟨⟨a, ha, hta⟩, hr | ⟨r, hr⟩⟩ := hev e (List.mem_of_mem_filter he)
    · simp [Event.relError, hr, hta]
    · simp [Event.relError, hr, hta, FV.fin_div_fin _ _ ha]
  have hni' : ∀ i, NoInf ((eventsOf .true bins i (rescale c events)).map Event.relError) := by
    intro i v hv
    rw [eventsOf_rescale] at hv
    obtain ⟨e, he, rfl⟩ := List.mem_map.mp hv
    obtain ⟨e0, he0, rfl⟩ := List.mem_map.mp he
    obtain ⟨⟨a, ha, hta⟩, hr | ⟨r, hr⟩⟩ := hev e0 (List.mem_of_mem_filter he0)
    · simp [Event.relError, hr, hta]
    · simp [Event.relError, hr, hta, FV.fin_div_fin _ _ ha]
  refine ⟨tab, tab', h1, h1', ?_, ?_, ?_⟩
  · have e := energyBiasResolution_eq nanmedian interQuantileDistance _ _ median_ok iqd_ok .true events hb hl hin
    have e' := energyBiasResolution_eq nanmedian interQuantileDistance _ _ median_ok iqd_ok .true (rescale c events) hb hl hin'
    rw [h1] at e; rw [h1'] at e'
    rw [Except.ok.inj e, Except.ok.inj e']
    simp only [group_errPairs, eventsOf_rescale]
    simp [rescale]
  · apply List.ext_getElem
    · rw [List.length_map, h2, h2']
    · intro i hi1 hi2
      have hi : i < bins.length - 1 := by omega
      rw [List.getElem_map]
      obtain ⟨n1, n2⟩ := h4 i hi (hni i)
      obtain ⟨n1', n2'⟩ := h4' i hi (hni' i)
      rw [hrow] at n1' n2'
      by_cases hx : numbers ((eventsOf .true bins i events).map Event.relError) = []
      · rw [(n1 hx).1, (n1' (by simp [hx])).1]; simp
      · obtain ⟨m, lo, up, a1, a2, a3, a4, a5, _⟩ := n2 hx
        obtain ⟨m', lo', up', a1', a2', a3', a4', a5', _⟩ := n2' (by simpa using hx)
        rw [a4, a4', isPercentile_unique a1' (isPercentile_affine hc a1)]
        simp only [FV.fin_add_fin, FV.fin_mul_fin, FV.fin_sub_fin]
        congr 1; ring
  · apply List.ext_getElem
    · rw [List.length_map, h3, h3']
    · intro i hi1 hi2
      have hi : i < bins.length - 1 := by omega
      rw [List.getElem_map]
      obtain ⟨n1, n2⟩ := h4 i hi (hni i)
      obtain ⟨n1', n2'⟩ := h4' i hi (hni' i)
      rw [hrow] at n1' n2'
      by_cases hx : numbers ((eventsOf .true bins i events).map Event.relError) = []
      · rw [(n1 hx).2, (n1' (by simp [hx])).2]; simp
      · obtain ⟨m, lo, up, a1, a2, a3, a4, a5, _⟩ := n2 hx
        obtain ⟨m', lo', up', a1', a2', a3', a4', a5', _⟩ := n2' (by simpa using hx)
        rw [a5, a5', isPercentile_unique a2' (isPercentile_affine hc a2), isPercentile_unique a3' (isPercentile_affine hc a3)]
        simp only [FV.fin_mul_fin]
        congr 1; ring

/-- **C45** An empty event table gives a row per bin with `n_events` 0 and NaN bias and resolution, whatever the functions. -/
theorem C45_empty_table (bf rf : List (FV ℝ) → Except Err (FV ℝ)) (t : EnergyType) (bins : List (FV ℝ)) :
    ∃ tab, energyBiasResolution bf rf t [] bins = .ok tab ∧ tab.low = bins.dropLast ∧ tab.high = bins.tail ∧
      tab.nEvents = List.replicate (bins.length - 1) 0 ∧ tab.bias = List.replicate (bins.length - 1) .nan ∧
      tab.resolution = List.replicate (bins.length - 1) .nan := by
  unfold energyBiasResolution
  simp only [if_true]
  exact ⟨_, rfl, rfl, rfl, rfl, rfl, rfl⟩

/-- **C45** The alternative resolution function `energy_resolution_absolute_68` is the `Φ(1) - Φ(-1)` quantile of the absolute (non-NaN) errors; it
is never negative, and NaN if there is none. -/
theorem C45_absolute_68 (rel : List (FV ℝ)) (hrel : ∀ v ∈ rel, v = .nan ∨ ∃ x, v = .fin x) :
    (numbers rel = [] → energyResolutionAbsolute68 rel = .ok .nan) ∧
    (numbers rel ≠ [] → ∃ v, energyResolutionAbsolute68 rel = .ok (.fin v) ∧ 0 ≤ v ∧
      IsPercentile ((numbers rel).map fun x => |x|) (100 * (ProbabilityTheory.cdf (ProbabilityTheory.gaussianReal 0 1) 1 -
        ProbabilityTheory.cdf (ProbabilityTheory.gaussianReal 0 1) (-1))) v) := by
  have hnum : numbers (rel.map absF) = (numbers rel).map fun x => |x| := by
    induction rel with
    | nil => rfl
    | cons e l ih =>
      have ih := ih (fun x hx => hrel x (List.mem_cons_of_mem _ hx))
      unfold numbers at ih ⊢
      simp only [List.map_cons, List.filterMap_cons]
      rcases hrel e (by simp) with h | ⟨x, h⟩
      · rw [h]; exact ih
      · rw [h]; simp only [absF, List.map_cons]; rw [ih]
  unfold energyResolutionAbsolute68
  rw [nanquantile_ok oneSigma_nonneg oneSigma_le_one]
  have o0 := oneSigma_nonneg
  have o1 := oneSigma_le_one
  have hni : NoInf (rel.map absF) := by
    intro v hv
    obtain ⟨w, hw, rfl⟩ := List.mem_map.mp hv
    rcases hrel w hw with rfl | ⟨x, rfl⟩ <;> simp [absF]
  refine ⟨fun h => by rw [pctVal_nan hni (by rw [hnum, h]; rfl)], fun h => ?_⟩
  obtain ⟨v, e, hv⟩ := pctVal_spec (p := oneSigmaCoverage * 100) (by positivity) (by linarith) (g := rel.map absF) hni (by rw [hnum]; simpa using h)
  rw [hnum] at hv
  refine ⟨v, by rw [e], ?_, by rw [mul_comm]; exact hv⟩
  obtain ⟨⟨a, ha, ha'⟩, -⟩ := C09_between_data _ _ _ hv
  obtain ⟨x, -, rfl⟩ := List.mem_map.mp ha
  exact (abs_nonneg x).trans ha'

/-! ## The hypotheses are satisfiable -/

/-- bin edges 1, 10, 100 TeV -/
noncomputable def bins2 : List (FV ℝ) := [.fin 1, .fin 10, .fin 100]
/-- two events in the first bin, one below the range -/
noncomputable def evs3 : List Event := [⟨.fin 2, .fin 3, .fin 1⟩, ⟨.fin 4, .fin 4, .fin 2⟩, ⟨.fin (1 / 2), .fin 4, .fin 2⟩]

theorem bins2_inc : Increasing bins2 := by
  unfold Increasing bins2
  refine ⟨by simp, ?_⟩
  simp
  norm_num

example : Increasing bins2 ∧ 0 < bins2.length ∧
    (∀ e ∈ evs3, (∃ a, a ≠ 0 ∧ e.trueEnergy = .fin a) ∧ (e.recoEnergy = .nan ∨ ∃ r, e.recoEnergy = .fin r)) ∧
    (eventsOf .true bins2 0 evs3).length = 2 := by
  refine ⟨bins2_inc, by simp [bins2], ?_, ?_⟩
  · intro e he
    simp only [evs3, List.mem_cons, List.not_mem_nil, or_false] at he
    rcases he with rfl | rfl | rfl <;> simp
  · simp [eventsOf, evs3, bins2, InBin, Event.energy]
    norm_num

end Pyirf.Bench
