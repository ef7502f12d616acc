import Verif.Examples.SelectionProps
import Verif.Irf.DensityProps

/-! # Property C134: effective areas, energy dispersions and PSF of the EventDisplay script -/
set_option linter.unusedSectionVars false
set_option linter.unusedSimpArgs false

namespace Pyirf.Examples
open Pyirf Pyirf.Np Pyirf.Binning Pyirf.Cuts Pyirf.Sensitivity Pyirf.CutOpt Pyirf.Simulations Pyirf.Spectral Pyirf.Coords Pyirf.Irf

/-! ## Specification -/

/-- Which gammas the effective area and energy dispersion with a given label are made of. -/
def labelled (s : Settings) (sel : Selection) : List (String × (Row → Prop)) :=
  [("", fun g => PassesTheta s sel g ∧ PassesScore s sel g), ("_NO_CUTS", fun _ => True), ("_ONLY_GH", PassesScore s sel), ("_ONLY_THETA", PassesTheta s sel)]

open Classical in
/-- Number of events with property `P` and true energy in the `i`-th bin. -/
noncomputable def numberIn (s : Settings) (events : List Row) (P : Row → Prop) (i : ℕ) : ℕ :=
  numberWhere events fun g => P g ∧ InHistBin s.trueEnergyBins i g.trueEnergy

/-- Expected number of simulated gammas in the `i`-th bin. -/
noncomputable def simulatedNumber (s : Settings) (info : Info) (i : ℕ) : ℝ :=
  expectedShowers info (s.trueEnergyBins.getD i .nan) (s.trueEnergyBins.getD (i + 1) .nan)

/-- An edge of the true energy bins lies in the range of simulated energies. -/
def EdgeInRange (s : Settings) (info : Info) : Prop :=
  ∃ e ∈ s.trueEnergyBins, FV.le (.fin info.energyMin) e = true ∧ FV.le e (.fin info.energyMax) = true

/-- An event with property `P` in a bin of true energy and offset. -/
def InCell (s : Settings) (P : Row → Prop) (i j : ℕ) (g : Row) : Prop :=
  P g ∧ InHistBin s.trueEnergyBins i g.trueEnergy ∧ InHistBin (s.fovOffsetBins.map FV.fin) j g.trueOffset

/-- The energy migration of the event is in bin `a`. -/
def InMigrationBin (s : Settings) (a : ℕ) (g : Row) : Prop := InHistBin (s.migrationBins.map FV.fin) a (g.recoEnergy / g.trueEnergy)
/-- The theta of the event is in bin `a`. -/
def InSourceBin (s : Settings) (a : ℕ) (g : Row) : Prop := InHistBin (s.sourceOffsetBins.map FV.fin) a g.theta

open Classical in
/-- The energy dispersion `d` of the events with property `P`: in the bins with events the density of their energy migrations (entry times width is the fraction of the events; these
add up to 1), zero in the others. -/
def IsDispersion (s : Settings) (events : List Row) (P : Row → Prop)
    (d : Fin (s.trueEnergyBins.length - 1) → Fin (s.migrationBins.length - 1) → Fin (s.fovOffsetBins.length - 1) → ℝ) : Prop :=
  (∀ i a j, 0 ≤ d i a j) ∧ ∀ (i : Fin (s.trueEnergyBins.length - 1)) (j : Fin (s.fovOffsetBins.length - 1)),
    ((∃ g ∈ events, InCell s P i j g ∧ ∃ a, InMigrationBin s a g) →
      ∑ a, d i a j * (s.migrationBins.getD (a + 1) 0 - s.migrationBins.getD a 0) = 1 ∧
      ∀ a, d i a j * (s.migrationBins.getD (a + 1) 0 - s.migrationBins.getD a 0) * numberWhere events (fun g => InCell s P i j g ∧ ∃ a, InMigrationBin s a g) =
        numberWhere events (fun g => InCell s P i j g ∧ InMigrationBin s a g)) ∧
    ((¬ ∃ g ∈ events, InCell s P i j g ∧ ∃ a, InMigrationBin s a g) → ∀ a, d i a j = 0)

open Classical in
/-- The PSF `d` of the events with property `P`: in the bins with events the density of their thetas per solid angle (entry times solid angle is the fraction of the events; these
add up to 1), zero in the others. -/
def IsPsf (s : Settings) (events : List Row) (P : Row → Prop)
    (d : Fin (s.trueEnergyBins.length - 1) → Fin (s.fovOffsetBins.length - 1) → Fin (s.sourceOffsetBins.length - 1) → ℝ) : Prop :=
  (∀ i j a, 0 ≤ d i j a) ∧ ∀ (i : Fin (s.trueEnergyBins.length - 1)) (j : Fin (s.fovOffsetBins.length - 1)),
    ((∃ g ∈ events, InCell s P i j g ∧ ∃ a, InSourceBin s a g) →
      ∑ a, d i j a * (2 * Real.pi * (Real.cos (s.sourceOffsetBins.getD a 0) - Real.cos (s.sourceOffsetBins.getD (a + 1) 0))) = 1 ∧
      ∀ a, d i j a * (2 * Real.pi * (Real.cos (s.sourceOffsetBins.getD a 0) - Real.cos (s.sourceOffsetBins.getD (a + 1) 0))) *
          numberWhere events (fun g => InCell s P i j g ∧ ∃ a, InSourceBin s a g) =
        numberWhere events (fun g => InCell s P i j g ∧ InSourceBin s a g)) ∧
    ((¬ ∃ g ∈ events, InCell s P i j g ∧ ∃ a, InSourceBin s a g) → ∀ a, d i j a = 0)

/-! ## Lemmas -/

theorem inBinOf_list (l : List (FV ℝ)) (hl : 0 < l.length) (i : Fin (l.length - 1)) (x : FV ℝ) : InBinOf (fEdges l) i x ↔ InHistBin l i x := by
  rw [← inBinOf_iff]
  unfold fEdges
  rw [ofFn_edges _ _ hl]

theorem ofFn_finEdges (l : List ℝ) (hl : 0 < l.length) : List.ofFn (finEdges (rEdges l)) = l.map FV.fin := by
  have h : finEdges (rEdges l) = FV.fin ∘ rEdges l := rfl
  rw [h, ← List.map_ofFn]
  unfold rEdges
  rw [ofFn_edges _ _ hl]

theorem inBinOf_fin (l : List ℝ) (hl : 0 < l.length) (i : Fin (l.length - 1)) (x : FV ℝ) :
    InBinOf (finEdges (rEdges l)) i x ↔ InHistBin (l.map FV.fin) i x := by
  rw [← inBinOf_iff, ofFn_finEdges _ hl]

theorem strictMono_of (l : List ℝ) (h : FiniteBins l) : StrictMono (rEdges l) := by
  intro i j hij
  unfold rEdges
  rw [edges_get _ _ _ (by have := h.1; omega), edges_get _ _ _ (by have := h.1; omega)]
  exact List.pairwise_iff_getElem.mp h.2 _ _ _ _ hij

theorem incEdges_fin (l : List ℝ) (h : FiniteBins l) : IncEdges (finEdges (rEdges l)) := by
  refine ⟨fun i => by simp [finEdges], ?_⟩
  intro i j hij
  have := mono_of l h hij
  simpa [finEdges, FV.le] using this

theorem inRangeOf_fin (l : List ℝ) (h : FiniteBins l) (x : FV ℝ) :
    InRangeOf (finEdges (rEdges l)) x ↔ ∃ a, InHistBin (l.map FV.fin) a x := by
  have hl := h.1
  rw [← inBinOf_range (incEdges_fin l h) (by omega)]
  constructor
  · rintro ⟨a, ha⟩
    exact ⟨a, (inBinOf_fin l (by omega) a x).mp ha⟩
  · rintro ⟨a, ha⟩
    have : a < l.length - 1 := by obtain ⟨h1, -⟩ := ha; rw [List.length_map] at h1; omega
    exact ⟨⟨a, this⟩, (inBinOf_fin l (by omega) ⟨a, this⟩ x).mpr ha⟩

theorem edge_cast (l : List (FV ℝ)) (i : Fin (l.length - 1)) : fEdges l i.castSucc = l.getD i .nan ∧ fEdges l i.succ = l.getD (i + 1) .nan := by
  constructor <;> simp [fEdges, edgesOf]

theorem energyEdges_of {s : Settings} (hp : Proper s) {info : Info} (hr : EdgeInRange s info) : EnergyEdges info (fEdges s.trueEnergyBins) := by
  have hinc := hp.trueBins.increasing1
  have h2 := hp.trueBins.two
  have hget : ∀ i : Fin (s.trueEnergyBins.length - 1), fEdges s.trueEnergyBins i.castSucc = s.trueEnergyBins[i.val] ∧
      fEdges s.trueEnergyBins i.succ = s.trueEnergyBins[i.val + 1] := by
    intro i
    constructor <;> exact edges_get _ _ _ (by omega)
  have h0 : ∀ x ∈ s.trueEnergyBins, FV.le (.fin 0) x = true := by
    intro x hx
    obtain ⟨es, -, hpos, -, hB⟩ := hp.trueBins
    rw [hB] at hx
    simp only [List.mem_cons, List.mem_append, List.mem_map, List.mem_nil_iff, or_false] at hx
    rcases hx with rfl | ⟨e, he, rfl⟩ | rfl
    · simp [FV.le]
    · simpa [FV.le] using (hpos e he).le
    · simp [FV.le]
  refine ⟨?_, ?_⟩
  · intro i
    rw [(hget i).1, (hget i).2]
    exact ⟨h0 _ (List.getElem_mem _), List.pairwise_iff_getElem.mp hinc.2 _ _ _ _ (by omega)⟩
  · intro i
    rw [(hget i).1, (hget i).2]
    rintro ⟨h3, h4⟩
    obtain ⟨e, he, h5, h6⟩ := hr
    obtain ⟨k, hk, rfl⟩ := List.getElem_of_mem he
    rcases Nat.lt_or_ge i.val k with hik | hik
    · have : FV.le s.trueEnergyBins[i.val + 1] s.trueEnergyBins[k] = true := by
        rcases Nat.lt_or_ge (i.val + 1) k with h | h
        · exact FV.le_of_lt' (List.pairwise_iff_getElem.mp hinc.2 _ _ _ _ h)
        · obtain rfl : k = i.val + 1 := by omega
          exact FV.le_refl' (hinc.1 _ (List.getElem_mem _)).1
      have h7 := FV.lt_of_lt_of_le' h4 this
      rw [FV.not_lt_of_le h6] at h7
      cases h7
    · have : FV.le s.trueEnergyBins[k] s.trueEnergyBins[i.val] = true := by
        rcases Nat.lt_or_ge k i.val with h | h
        · exact FV.le_of_lt' (List.pairwise_iff_getElem.mp hinc.2 _ _ _ _ h)
        · obtain rfl : k = i.val := by omega
          exact FV.le_refl' (hinc.1 _ (List.getElem_mem _)).1
      have h7 := FV.lt_of_le_of_lt' this h3
      rw [FV.not_lt_of_le h5] at h7
      cases h7

open Classical in
/-- the events of the masks -/
theorem masks_filter {inp : Input} {s : Settings} {out : Output s} {gammas protons electrons : List Row} {spectrum : PowerLaw}
    (f : Facts inp s out gammas protons electrons spectrum) :
    masks gammas out.sel = (labelled s out.sel).map fun lp => (lp.1, gammas.filter fun g => decide (lp.2 g)) := by
  obtain ⟨m1, m2, m3, m4⟩ := masks_eq f
  unfold masks labelled
  rw [m1, m3, m4, CutOpt.select_map, CutOpt.select_map, CutOpt.select_map]
  simp

theorem numberWhere_filter {ρ : Type} (rows : List ρ) (P Q : ρ → Prop) [DecidablePred P] [DecidablePred Q] [DecidablePred fun g => P g ∧ Q g] : numberWhere (rows.filter fun g => decide (P g)) Q = numberWhere rows (fun g => P g ∧ Q g) := by
  unfold numberWhere
  rw [List.filter_filter]
  congr 1
  apply List.filter_congr
  intro g _
  by_cases h1 : P g <;> by_cases h2 : Q g <;> simp [h1, h2]

theorem numberWhere_select {ρ σ : Type} (rows : List ρ) (P : ρ → Prop) [DecidablePred P] (f : ρ → σ) (Q : σ → Prop) [DecidablePred Q] (Q' : ρ → Prop) [DecidablePred Q']
    (hQ : ∀ g, Q (f g) ∧ P g ↔ Q' g) : numberWhere ((rows.filter fun g => decide (P g)).map f) Q = numberWhere rows Q' := by
  rw [Pipeline.numberWhere_map]
  unfold numberWhere
  rw [List.filter_filter]
  congr 1
  apply List.filter_congr
  intro g _
  rw [Bool.eq_iff_iff]
  simp only [Bool.and_eq_true, decide_eq_true_eq]
  exact hQ g

open Classical in
theorem areas_eq {inp : Input} {s : Settings} {gammas : List Row} (hp : Proper s) (hv : Valid inp.gammaInfo)
    (hR : 0 < inp.gammaInfo.maxImpact) (hnw : ∀ g ∈ gammas, g.particle ≠ "weighted") (hr : EdgeInRange s inp.gammaInfo) (P : Row → Prop)
    {A : Fin (s.trueEnergyBins.length - 1) → FV ℝ}
    (hA : effectiveAreaPerEnergy ⟨true, true, (gammas.filter fun g => decide (P g)).map Row.toAreaEvent⟩ inp.gammaInfo (fEdges s.trueEnergyBins) = .ok A) (i) :
    A i = areaOf (numberIn s gammas P i) (simulatedNumber s inp.gammaInfo i) (simulatedArea inp.gammaInfo) := by
  have h2 := hp.trueBins.two
  rw [C38_per_energy _ _ hv hR (by omega) _ (energyEdges_of hp hr)] at hA
  · have := congrFun (Except.ok.inj hA) i
    rw [← this]
    unfold simulatedNumber numberIn
    rw [(edge_cast _ i).1, (edge_cast _ i).2]
    congr 1
    rw [Pipeline.numberWhere_map]
    refine Eq.trans ?_ (numberWhere_filter gammas P (fun g => InHistBin s.trueEnergyBins i g.trueEnergy))
    unfold numberWhere
    congr 1
    apply List.filter_congr
    intro g _
    rw [Bool.eq_iff_iff]
    simp only [decide_eq_true_eq]
    exact inBinOf_list _ (by omega) i _
  · intro _ hmem
    obtain ⟨e, he, hpart⟩ := List.mem_map.mp hmem
    obtain ⟨g, hg, rfl⟩ := List.mem_map.mp he
    exact hnw g (List.mem_of_mem_filter hg) hpart

open Classical in
theorem dispersion_eq {s : Settings} (hp : Proper s) (big : ℝ) (gammas : List Row) (P : Row → Prop) :
    ∃ d, energyDispersion big ((gammas.filter fun g => decide (P g)).map Row.toReco) (fEdges s.trueEnergyBins) (finEdges (rEdges s.fovOffsetBins))
      (finEdges (rEdges s.migrationBins)) = .ok (fun i a j => .fin (d i a j)) ∧ IsDispersion s gammas P d := by
  have h2 := hp.trueBins.two
  have h3 := hp.fovBins.1
  have h4 := hp.migrationBins.1
  obtain ⟨d, hd, hnn, hh⟩ := C39_energy_dispersion big ((gammas.filter fun g => decide (P g)).map Row.toReco) (fEdges s.trueEnergyBins)
    (incEdges_of _ hp.trueBins.increasing1 h2) _ (incEdges_fin _ hp.fovBins) (rEdges s.migrationBins) (strictMono_of _ hp.migrationBins) (by omega)
  refine ⟨d, hd, hnn, ?_⟩
  intro i j
  have hcell : ∀ g : Row, ((InBinOf (fEdges s.trueEnergyBins) i g.toReco.trueEnergy ∧ InBinOf (finEdges (rEdges s.fovOffsetBins)) j g.toReco.offset) ∧ P g) ↔ InCell s P i j g := by
    intro g
    rw [inBinOf_list _ (by omega), inBinOf_fin _ (by omega)]
    unfold InCell
    show ((_ ∧ _) ∧ _) ↔ _
    exact And.comm
  have hrange : ∀ g : Row, InRangeOf (finEdges (rEdges s.migrationBins)) (g.toReco.recoEnergy / g.toReco.trueEnergy) ↔ ∃ a, InMigrationBin s a g := by
    intro g
    exact inRangeOf_fin _ hp.migrationBins _
  have hbin : ∀ (a : Fin (s.migrationBins.length - 1)) (g : Row), InBinOf (finEdges (rEdges s.migrationBins)) a (g.toReco.recoEnergy / g.toReco.trueEnergy) ↔ InMigrationBin s a g := by
    intro a g
    exact inBinOf_fin _ (by omega) a _
  have key : (∃ e ∈ (gammas.filter fun g => decide (P g)).map Row.toReco, (InBinOf (fEdges s.trueEnergyBins) i e.trueEnergy ∧
      InBinOf (finEdges (rEdges s.fovOffsetBins)) j e.offset) ∧ InRangeOf (finEdges (rEdges s.migrationBins)) (e.recoEnergy / e.trueEnergy)) ↔
      ∃ g ∈ gammas, InCell s P i j g ∧ ∃ a, InMigrationBin s a g := by
    constructor
    · rintro ⟨e, he, h6, h7⟩
      obtain ⟨g, hg, rfl⟩ := List.mem_map.mp he
      obtain ⟨hg1, hg2⟩ := List.mem_filter.mp hg
      exact ⟨g, hg1, (hcell g).mp ⟨h6, of_decide_eq_true hg2⟩, (hrange g).mp h7⟩
    · rintro ⟨g, hg1, h6, h7⟩
      exact ⟨g.toReco, List.mem_map.mpr ⟨g, List.mem_filter.mpr ⟨hg1, decide_eq_true ((hcell g).mpr h6).2⟩, rfl⟩, ((hcell g).mpr h6).1, (hrange g).mpr h7⟩
  have h5 := hh i j
  rw [key] at h5
  refine ⟨fun h => ⟨?_, ?_⟩, h5.2⟩
  · rw [← (h5.1 h).1]
    refine Finset.sum_congr rfl fun a _ => ?_
    simp [rEdges, edgesOf]
  · intro a
    have h6 := (h5.1 h).2 a
    have hw : rEdges s.migrationBins a.castSucc = s.migrationBins.getD a 0 ∧ rEdges s.migrationBins a.succ = s.migrationBins.getD (a + 1) 0 := by
      constructor <;> simp [rEdges, edgesOf]
    rw [hw.1, hw.2] at h6
    refine Eq.trans (Eq.trans ?_ h6) ?_
    · congr 2
      symm
      apply numberWhere_select
      intro g
      rw [← hcell g, ← hrange g]
      tauto
    · congr 1
      apply numberWhere_select
      intro g
      rw [← hcell g, ← hbin a g]
      tauto

open Classical in
theorem psf_eq {s : Settings} (hp : Proper s) (h0 : ∀ x ∈ s.sourceOffsetBins, 0 ≤ x ∧ x ≤ Real.pi) (big : ℝ) (gammas : List Row) (P : Row → Prop) :
    ∃ d, psfTable big ((gammas.filter fun g => decide (P g)).map Row.toReco) (fEdges s.trueEnergyBins) (rEdges s.sourceOffsetBins) (finEdges (rEdges s.fovOffsetBins))
      = .ok (fun i j a => .fin (d i j a)) ∧ IsPsf s gammas P d := by
  have h2 := hp.trueBins.two
  have h3 := hp.fovBins.1
  have h4 := hp.sourceBins.1
  have hmem : ∀ i, rEdges s.sourceOffsetBins i ∈ s.sourceOffsetBins := by
    intro i
    unfold rEdges
    rw [edges_get _ _ _ (by omega)]
    exact List.getElem_mem _
  obtain ⟨d, hd, hnn, hh⟩ := C41_psf_table big ((gammas.filter fun g => decide (P g)).map Row.toReco) (fEdges s.trueEnergyBins)
    (incEdges_of _ hp.trueBins.increasing1 h2) (rEdges s.sourceOffsetBins) (strictMono_of _ hp.sourceBins) (h0 _ (hmem _)).1 (h0 _ (hmem _)).2
    _ (incEdges_fin _ hp.fovBins) (by omega)
  refine ⟨d, hd, hnn, ?_⟩
  intro i j
  have hcell : ∀ g : Row, ((InBinOf (fEdges s.trueEnergyBins) i g.toReco.trueEnergy ∧ InBinOf (finEdges (rEdges s.fovOffsetBins)) j g.toReco.offset) ∧ P g) ↔ InCell s P i j g := by
    intro g
    rw [inBinOf_list _ (by omega), inBinOf_fin _ (by omega)]
    unfold InCell
    show ((_ ∧ _) ∧ _) ↔ _
    exact And.comm
  have hrange : ∀ g : Row, InRangeOf (finEdges (rEdges s.sourceOffsetBins)) (g.toReco.theta) ↔ ∃ a, InSourceBin s a g := by
    intro g
    exact inRangeOf_fin _ hp.sourceBins _
  have hbin : ∀ (a : Fin (s.sourceOffsetBins.length - 1)) (g : Row), InBinOf (finEdges (rEdges s.sourceOffsetBins)) a (g.toReco.theta) ↔ InSourceBin s a g := by
    intro a g
    exact inBinOf_fin _ (by omega) a _
  have key : (∃ e ∈ (gammas.filter fun g => decide (P g)).map Row.toReco, (InBinOf (fEdges s.trueEnergyBins) i e.trueEnergy ∧
      InBinOf (finEdges (rEdges s.fovOffsetBins)) j e.offset) ∧ InRangeOf (finEdges (rEdges s.sourceOffsetBins)) (e.theta)) ↔
      ∃ g ∈ gammas, InCell s P i j g ∧ ∃ a, InSourceBin s a g := by
    constructor
    · rintro ⟨e, he, h6, h7⟩
      obtain ⟨g, hg, rfl⟩ := List.mem_map.mp he
      obtain ⟨hg1, hg2⟩ := List.mem_filter.mp hg
      exact ⟨g, hg1, (hcell g).mp ⟨h6, of_decide_eq_true hg2⟩, (hrange g).mp h7⟩
    · rintro ⟨g, hg1, h6, h7⟩
      exact ⟨g.toReco, List.mem_map.mpr ⟨g, List.mem_filter.mpr ⟨hg1, decide_eq_true ((hcell g).mpr h6).2⟩, rfl⟩, ((hcell g).mpr h6).1, (hrange g).mpr h7⟩
  have h5 := hh i j
  rw [key] at h5
  refine ⟨fun h => ⟨?_, ?_⟩, h5.2⟩
  · rw [← (h5.1 h).1]
    refine Finset.sum_congr rfl fun a _ => ?_
    simp [rEdges, edgesOf]
  · intro a
    have h6 := (h5.1 h).2 a
    have hw : rEdges s.sourceOffsetBins a.castSucc = s.sourceOffsetBins.getD a 0 ∧ rEdges s.sourceOffsetBins a.succ = s.sourceOffsetBins.getD (a + 1) 0 := by
      constructor <;> simp [rEdges, edgesOf]
    rw [hw.1, hw.2] at h6
    refine Eq.trans (Eq.trans ?_ h6) ?_
    · congr 2
      symm
      apply numberWhere_select
      intro g
      rw [← hcell g, ← hrange g]
      tauto
    · congr 1
      apply numberWhere_select
      intro g
      rw [← hcell g, ← hbin a g]
      tauto

theorem countP_two {ρ : Type} (l : List ρ) (p q a b : ρ → Bool) (h1 : ∀ g, (p g || q g) = true → a g = true)
    (h2 : ∀ g, b g = (p g && q g)) : l.countP p + l.countP q ≤ l.countP a + l.countP b := by
  induction l with
  | nil => simp
  | cons g l ih =>
    simp only [List.countP_cons]
    have e1 := h1 g
    have e2 := h2 g
    revert e1 e2
    cases p g <;> cases q g <;> cases a g <;> cases b g <;> simp <;> omega

theorem mapM_inv {α β : Type} {f : α → Except Err β} {l : List α} {r : List β} (h : l.mapM f = .ok r) : List.Forall₂ (fun a b => f a = .ok b) l r := by
  induction l generalizing r with
  | nil => cases h; exact .nil
  | cons a l ih =>
    rw [List.mapM_cons] at h
    obtain ⟨b, h1, h⟩ := bind_ok h
    obtain ⟨r', h2, h⟩ := bind_ok h
    obtain rfl := Except.ok.inj h
    exact .cons h1 (ih h2)

theorem source_range {s : Settings} (h : settings = .ok s) : ∀ x ∈ s.sourceOffsetBins, 0 ≤ x ∧ x ≤ Real.pi := by
  have hs : s.sourceOffsetBins = (arange 0 (1 + 1e-4) 1e-3).map (· * deg) := by
    unfold settings at h
    simp only [bind, Except.bind, pure, Except.pure] at h
    repeat' split at h
    all_goals first | (cases h; done) | (cases h; rfl)
  rw [hs]
  intro x hx
  obtain ⟨y, hy, rfl⟩ := List.mem_map.mp hx
  obtain ⟨k, hk, rfl⟩ := List.getElem_of_mem hy
  rw [length_arange] at hk
  have hc : (⌈((1 + 1e-4 - 0 : ℝ) / 1e-3)⌉) = 1001 := by rw [Int.ceil_eq_iff]; norm_num
  rw [hc] at hk
  have hk' : (k:ℝ) ≤ 1000 := by
    have : k < 1001 := hk
    exact_mod_cast (by omega : k ≤ 1000)
  have hk0 : (0:ℝ) ≤ k := Nat.cast_nonneg k
  simp only [arange, List.getElem_map, List.getElem_range]
  have hd := deg_pos
  have hpi : deg * 180 = Real.pi := by unfold deg; ring
  refine ⟨mul_nonneg (by linarith) hd.le, ?_⟩
  nlinarith

/-! ## C134 -/

/-- **C134** (effective areas) Whenever the script succeeds and an edge of the true energy bins is in the range of the simulation, it makes four effective areas: for the
selected gammas, all gammas, and the gammas that pass only the gh or only the theta cut. In each bin, the effective area is the number of those gammas over
the number of simulated ones, times the simulated area. -/
theorem C134_effective_areas (inp : Input) (h : ProperSimulations inp) (s : Settings) (out : Output s) (hok : main inp = .ok ⟨s, out⟩)
    (hr : EdgeInRange s inp.gammaInfo) :
    ∃ gammas background, eventLists s inp = .ok (gammas, background) ∧
      List.Forall₂ (fun (lp : String × (Row → Prop)) (m : MaskIrf s) => m.label = lp.1 ∧
        ∀ i, m.area i = areaOf (numberIn s gammas lp.2 i) (simulatedNumber s inp.gammaInfo i) (simulatedArea inp.gammaInfo)) (labelled s out.sel) out.irfs := by
  obtain ⟨gammas, p, e, sp, f⟩ := main_facts h hok
  refine ⟨gammas, _, f.lists, ?_⟩
  have hi := mapM_inv f.steps.irfs
  rw [masks_filter f, List.forall₂_map_left_iff] at hi
  refine hi.imp ?_
  intro lp m hm
  unfold maskIrf at hm
  obtain ⟨A, h1, hm⟩ := bind_ok hm
  obtain ⟨d, h2, hm⟩ := bind_ok hm
  obtain rfl := Except.ok.inj hm
  exact ⟨rfl, areas_eq f.proper h.gamma.1 h.gamma.2.2 (noWeighted f.gammaRows (by decide)) hr lp.2 h1⟩

open Classical in
/-- **C134** (order of the effective areas) In each bin in which gammas were simulated the four effective areas are non-negative numbers; that of the selected gammas is at most
those with a single cut, these are at most the one without cuts, and the sum of those with a single cut is at most the sum of the other two. -/
theorem C134_order (inp : Input) (h : ProperSimulations inp) (s : Settings) (out : Output s) (hok : main inp = .ok ⟨s, out⟩)
    (hr : EdgeInRange s inp.gammaInfo) :
    ∃ sel no gh th : MaskIrf s, out.irfs = [sel, no, gh, th] ∧ (sel.label, no.label, gh.label, th.label) = ("", "_NO_CUTS", "_ONLY_GH", "_ONLY_THETA") ∧
      ∀ i : Fin (s.trueEnergyBins.length - 1), 0 < simulatedNumber s inp.gammaInfo i → ∃ a n g t : ℝ, sel.area i = .fin a ∧ no.area i = .fin n ∧ gh.area i = .fin g ∧ th.area i = .fin t ∧
        0 ≤ a ∧ a ≤ g ∧ a ≤ t ∧ g ≤ n ∧ t ≤ n ∧ g + t ≤ n + a := by
  obtain ⟨gammas, bg, -, hf⟩ := C134_effective_areas inp h s out hok hr
  have hlen := hf.length_eq
  match hirf : out.irfs, hlen with
  | [sel, no, gh, th], _ =>
    rw [hirf] at hf
    unfold labelled at hf
    cases hf with | cons f1 hf =>
    cases hf with | cons f2 hf =>
    cases hf with | cons f3 hf =>
    cases hf with | cons f4 hf =>
    refine ⟨sel, no, gh, th, rfl, by rw [f1.1, f2.1, f3.1, f4.1], ?_⟩
    intro i hi
    rw [f1.2, f2.2, f3.2, f4.2]
    simp only [areaOf, if_neg hi.ne']
    refine ⟨_, _, _, _, rfl, rfl, rfl, rfl, ?_⟩
    have hA := simulatedArea_pos h.gamma.2.2
    have hmono : ∀ P Q : Row → Prop, (∀ g, P g → Q g) → (numberIn s gammas P i : ℝ) ≤ numberIn s gammas Q i := by
      intro P Q hPQ
      unfold numberIn numberWhere
      norm_cast
      rw [← List.countP_eq_length_filter, ← List.countP_eq_length_filter]
      apply List.countP_mono_left
      intro g _ hg
      simp only [decide_eq_true_eq] at hg ⊢
      exact ⟨hPQ g hg.1, hg.2⟩
    have hscale : ∀ {x y : ℝ}, x ≤ y → x / simulatedNumber s inp.gammaInfo i * simulatedArea inp.gammaInfo ≤
        y / simulatedNumber s inp.gammaInfo i * simulatedArea inp.gammaInfo := by
      intro x y hxy
      gcongr
    have hie : (numberIn s gammas (PassesScore s out.sel) i : ℝ) + numberIn s gammas (PassesTheta s out.sel) i ≤
        numberIn s gammas (fun _ => True) i + numberIn s gammas (fun g => PassesTheta s out.sel g ∧ PassesScore s out.sel g) i := by
      unfold numberIn numberWhere
      norm_cast
      simp only [← List.countP_eq_length_filter]
      exact countP_two gammas _ _ _ _ (fun g => by by_cases h1 : PassesScore s out.sel g <;> by_cases h2 : PassesTheta s out.sel g <;> simp [h1, h2])
        (fun g => by by_cases h1 : PassesScore s out.sel g <;> by_cases h2 : PassesTheta s out.sel g <;> simp [h1, h2])
    refine ⟨by positivity, hscale (hmono _ _ fun g hg => hg.2), hscale (hmono _ _ fun g hg => hg.1), hscale (hmono _ _ fun _ _ => trivial),
      hscale (hmono _ _ fun _ _ => trivial), ?_⟩
    rw [← add_mul, ← add_mul, ← add_div, ← add_div]
    exact hscale hie

/-- **C134** (densities) Whenever the script succeeds, the four energy dispersions are the densities of the energy migrations of these gammas in each bin with events (normalised to 1) and zero
in the others; the PSF is the density of the thetas of the gammas that pass the gh cut, without theta cut, per solid angle and normalised in the same way. -/
theorem C134_densities (inp : Input) (h : ProperSimulations inp) (s : Settings) (out : Output s) (hok : main inp = .ok ⟨s, out⟩) :
    ∃ gammas background, eventLists s inp = .ok (gammas, background) ∧
      List.Forall₂ (fun (lp : String × (Row → Prop)) (m : MaskIrf s) => m.label = lp.1 ∧
        ∃ d, m.edisp = (fun i a j => .fin (d i a j)) ∧ IsDispersion s gammas lp.2 d) (labelled s out.sel) out.irfs ∧
      ∃ d, out.psf = (fun i j a => .fin (d i j a)) ∧ IsPsf s gammas (PassesScore s out.sel) d := by
  classical
  obtain ⟨gammas, p, e, sp, f⟩ := main_facts h hok
  refine ⟨gammas, _, f.lists, ?_, ?_⟩
  · have hi := mapM_inv f.steps.irfs
    rw [masks_filter f, List.forall₂_map_left_iff] at hi
    refine hi.imp ?_
    intro lp m hm
    unfold maskIrf at hm
    obtain ⟨A, h1, hm⟩ := bind_ok hm
    obtain ⟨d, h2, hm⟩ := bind_ok hm
    obtain rfl := Except.ok.inj hm
    obtain ⟨d', hd, hd2⟩ := dispersion_eq f.proper inp.big gammas lp.2
    refine ⟨rfl, d', ?_, hd2⟩
    exact (Except.ok.inj (hd.symm.trans h2)).symm
  · have hp := f.steps.psf
    rw [(masks_eq f).1, CutOpt.select_map] at hp
    obtain ⟨d', hd, hd2⟩ := psf_eq f.proper (source_range f.isSettings) inp.big gammas (PassesScore s out.sel)
    exact ⟨d', (Except.ok.inj (hd.symm.trans hp)).symm, hd2⟩

end Pyirf.Examples
