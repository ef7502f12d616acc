import Verif.Examples.RunProps
import Verif.Irf.BackgroundProps
import Verif.Bench.ColumnProps

/-! # Property C138: background rate and benchmark tables of the EventDisplay script -/
set_option linter.unusedSectionVars false
set_option linter.unusedSimpArgs false

namespace Pyirf.Examples
open Pyirf Pyirf.Np Pyirf.Binning Pyirf.Cuts Pyirf.Sensitivity Pyirf.CutOpt Pyirf.Simulations Pyirf.Spectral Pyirf.Coords Pyirf.Irf

/-! ## Specification -/

open Classical in
/-- Summed weight (expected number of events in 50 h) of the events with a property. -/
noncomputable def weightOf (events : List Row) (P : Row → Prop) : ℝ := ((events.filter fun g => decide (P g)).map Row.weight).sum

open Classical in
/-- The events with a property and the reconstructed energy in bin `i`. -/
noncomputable def eventsWith (s : Settings) (events : List Row) (P : Row → Prop) (i : ℕ) : List Row :=
  events.filter fun g => decide (P g ∧ InBin s.recoEnergyBins i g.recoEnergy)

/-- `r` is the relative error of the reconstructed energy of `g`. -/
def IsError (g : Row) (r : ℝ) : Prop := ∃ reco true : ℝ, g.recoEnergy = .fin reco ∧ g.trueEnergy = .fin true ∧ r = reco / true - 1

/-- distribution function of the standard normal distribution -/
noncomputable def phi (x : ℝ) : ℝ := ProbabilityTheory.cdf (ProbabilityTheory.gaussianReal 0 1) x

/-! ## Lemmas -/

theorem OverflowBins.last {B : List (FV ℝ)} (h : OverflowBins B) {i : ℕ} (hi : i < B.length - 1) :
    ∃ lo : ℝ, B.getD i .nan = .fin lo ∧ (i + 2 = B.length → B.getD (i + 1) .nan = .pinf) ∧
      (i + 2 ≠ B.length → ∃ hi : ℝ, B.getD (i + 1) .nan = .fin hi ∧ lo < hi) := by
  have hinc := h.increasing1
  have hpw := hinc.2
  have hlt : FV.lt (B.getD i .nan) (B.getD (i + 1) .nan) = true := by
    rw [List.getD_eq_getElem?_getD, List.getD_eq_getElem?_getD, List.getElem?_eq_getElem (by omega), List.getElem?_eq_getElem (by omega)]
    exact List.pairwise_iff_getElem.mp hpw _ _ _ _ (by omega)
  obtain ⟨es, hne, hpos, hs, rfl⟩ := h
  have hfin : ∀ k, k < es.length + 1 → ∃ x : ℝ, (FV.fin 0 :: (es.map FV.fin ++ [FV.pinf])).getD k .nan = .fin x := by
    intro k hk
    cases k with
    | zero => exact ⟨0, rfl⟩
    | succ k =>
      rw [List.getD_cons_succ, List.getD_eq_getElem?_getD, List.getElem?_append_left (by simpa using hk), List.getElem?_map,
        List.getElem?_eq_getElem (by omega)]
      exact ⟨_, rfl⟩
  simp only [List.length_cons, List.length_append, List.length_map, List.length_nil] at hi ⊢
  obtain ⟨lo, hlo⟩ := hfin i (by omega)
  refine ⟨lo, hlo, ?_, ?_⟩
  · intro h
    have : i = es.length := by omega
    subst this
    simp [List.getD_eq_getElem?_getD]
  · intro h
    obtain ⟨hi', hhi⟩ := hfin (i + 1) (by omega)
    refine ⟨hi', hhi, ?_⟩
    rw [hlo, hhi] at hlt
    simpa [FV.lt] using hlt

theorem background_range {s : Settings} (h : settings = .ok s) : 0 ≤ rEdges s.backgroundFovBins 0 ∧
    rEdges s.backgroundFovBins (Fin.last _) ≤ Real.pi := by
  obtain ⟨s', hs', -, -, -, -, -, -, -, -, hb, -⟩ := C136_settings
  obtain rfl := Except.ok.inj (hs'.symm.trans h)
  have hmem : ∀ x ∈ s'.backgroundFovBins, 0 ≤ x ∧ x ≤ Real.pi := by
    rw [hb]
    intro x hx
    obtain ⟨k, hk, rfl⟩ := List.mem_map.mp hx
    have hk' : (k:ℝ) ≤ 10 := by exact_mod_cast (by have := List.mem_range.mp hk; omega : k ≤ 10)
    have hpi : deg * 180 = Real.pi := by unfold deg; ring
    have hd := deg_pos
    have hk0 : (0:ℝ) ≤ k := Nat.cast_nonneg k
    refine ⟨by positivity, ?_⟩
    nlinarith
  have hl : 0 < s'.backgroundFovBins.length := by rw [hb]; simp
  unfold rEdges
  rw [edges_get _ _ _ hl, edges_get _ _ _ hl]
  exact ⟨(hmem _ (List.getElem_mem _)).1, (hmem _ (List.getElem_mem _)).2⟩

theorem eventsOf_rows (s : Settings) (rows : List Row) (P : Row → Prop) [DecidablePred P] (i : ℕ) :
    Bench.eventsOf .reco s.recoEnergyBins i ((rows.filter fun g => decide (P g)).map Row.toBench) = (eventsWith s rows P i).map Row.toBench := by
  unfold Bench.eventsOf eventsWith
  rw [List.filter_map, List.filter_filter]
  congr 1
  apply List.filter_congr
  intro g _
  rw [Bool.eq_iff_iff]
  simp only [Function.comp_apply, Row.toBench, Bool.and_eq_true, decide_eq_true_eq]
  rw [And.comm]
  exact and_congr Iff.rfl (@decide_eq_true_iff _ _)

theorem numbers_fin (xs : List ℝ) : Bench.numbers (xs.map FV.fin) = xs := by
  unfold Bench.numbers
  rw [List.filterMap_map]
  exact List.filterMap_some

theorem noInf_fin (xs : List ℝ) : NoInf (xs.map FV.fin) := by
  intro v hv
  obtain ⟨x, -, rfl⟩ := List.mem_map.mp hv
  simp

/-! ## C138 -/

/-- **C138** (background) Whenever the script succeeds, the background rate of each cell of reconstructed energy and offset, times the energy width, the solid angle of the
ring and 50 h, is the summed weight of the background events in the cell that pass the gh cut; except in the energy bin that reaches to infinity: there
the rate is 0. -/
theorem C138_background (inp : Input) (h : ProperSimulations inp) (s : Settings) (out : Output s) (hok : main inp = .ok ⟨s, out⟩) :
    ∃ gammas background, eventLists s inp = .ok (gammas, background) ∧
      ∀ (i : Fin (s.recoEnergyBins.length - 1)) (j : Fin (s.backgroundFovBins.length - 1)), ∃ lo : ℝ, s.recoEnergyBins.getD i .nan = .fin lo ∧
        (i + 2 < s.recoEnergyBins.length → ∃ hi rate : ℝ, s.recoEnergyBins.getD (i + 1) .nan = .fin hi ∧ lo < hi ∧ out.background i j = .fin rate ∧
          rate * (hi - lo) * (2 * Real.pi * (Real.cos (s.backgroundFovBins.getD j 0) - Real.cos (s.backgroundFovBins.getD (j + 1) 0))) * fiftyHours =
            weightOf background fun g => PassesScore s out.sel g ∧ InHistBin s.recoEnergyBins i g.recoEnergy ∧
              InHistBin (s.backgroundFovBins.map FV.fin) j g.recoOffset) ∧
        (i + 2 = s.recoEnergyBins.length → s.recoEnergyBins.getD (i + 1) .nan = .pinf ∧ out.background i j = .fin 0) := by
  classical
  obtain ⟨gammas, p, e, sp, f⟩ := main_facts h hok
  refine ⟨gammas, _, f.lists, ?_⟩
  have hbg := f.steps.background
  rw [(masks_eq f).2.1, CutOpt.select_map] at hbg
  have hp := f.proper
  have h2 := hp.recoBins.two
  have h3 := hp.backgroundFov.1
  obtain ⟨r0, r1⟩ := background_range f.isSettings
  obtain ⟨b, hb, hcell⟩ := C42_overflow_bins (((p ++ e).filter fun g => decide (PassesScore s out.sel g)).map Row.toBackground) (fEdges s.recoEnergyBins)
    (incEdges_of _ hp.recoBins.increasing1 h2) (rEdges s.backgroundFovBins) (strictMono_of _ hp.backgroundFov) r0 r1 s.tObs hp.tObs
  obtain rfl := Except.ok.inj (hb.symm.trans hbg)
  intro i j
  obtain ⟨lo, hlo, hlast, hmid⟩ := hp.recoBins.last i.2
  obtain ⟨c1, c2⟩ := hcell i j
  rw [(edge_cast _ i).1, (edge_cast _ i).2] at c1
  rw [(edge_cast _ i).1, (edge_cast _ i).2] at c2
  refine ⟨lo, hlo, ?_, fun hi => ⟨hlast hi, c2 lo hlo (hlast hi)⟩⟩
  intro hi
  obtain ⟨hi', hhi, hlt⟩ := hmid (by omega)
  obtain ⟨d, hd, hw⟩ := c1 lo hi' hlo hhi hlt
  refine ⟨hi', d, hhi, hlt, hd, ?_⟩
  have hc : Real.cos (rEdges s.backgroundFovBins j.castSucc) - Real.cos (rEdges s.backgroundFovBins j.succ) =
      Real.cos (s.backgroundFovBins.getD j 0) - Real.cos (s.backgroundFovBins.getD (j + 1) 0) := by simp [rEdges, edgesOf]
  rw [hc, (settings_const f.isSettings).1] at hw
  rw [hw]
  unfold weightWhere weightOf
  rw [sumWhere_map]
  unfold sumWhere
  rw [List.filter_filter]
  refine congrArg List.sum ?_
  refine congrArg (List.map Row.weight) ?_
  apply List.filter_congr
  intro g _
  rw [Bool.eq_iff_iff]
  simp only [Bool.and_eq_true, decide_eq_true_eq]
  rw [inBinOf_list _ (by omega), inBinOf_fin _ (by omega)]
  show ((_ ∧ _) ∧ _) ↔ _
  tauto

/-- events that pass the gh cut are in the bins of reconstructed energy -/
theorem selected_bench {s : Settings} (hp : Proper s) {sel : Selection} {l : List Row} (h : ∀ g ∈ l, PassesScore s sel g) :
    Bench.EmptyOrInside .reco s.recoEnergyBins (l.map Row.toBench) := by
  rcases l with _ | ⟨g, l⟩
  · exact Or.inl rfl
  · right
    obtain ⟨i, _, hi, -⟩ := h g (by simp)
    exact ⟨g.toBench, by simp, hp.sensitivityBins.inOther hp.recoBins ⟨i, hi⟩⟩

/-- **C138** (energy bias and resolution) Whenever the script succeeds, row `i` of its energy bias table is about the selected gammas with reconstructed energy in bin `i`:
their number; bias and resolution are NaN if there are none, and otherwise the median of their relative errors and half the distance of the quantiles `Φ(-1)` and `Φ(1)`. -/
theorem C138_bias (inp : Input) (h : ProperSimulations inp) (s : Settings) (out : Output s) (hok : main inp = .ok ⟨s, out⟩) :
    ∃ gammas background, eventLists s inp = .ok (gammas, background) ∧ out.bias.low = s.recoEnergyBins.dropLast ∧ out.bias.high = s.recoEnergyBins.tail ∧
      ∀ i : ℕ, i < s.recoEnergyBins.length - 1 →
        let mine := eventsWith s gammas (fun g => PassesTheta s out.sel g ∧ PassesScore s out.sel g) i
        out.bias.nEvents[i]? = some mine.length ∧
        (mine = [] → out.bias.bias[i]? = some .nan ∧ out.bias.resolution[i]? = some .nan) ∧
        (mine ≠ [] → ∃ (errors : List ℝ) (m lo hi : ℝ), List.Forall₂ IsError mine errors ∧ IsPercentile errors 50 m ∧
          IsPercentile errors (100 * phi (-1)) lo ∧ IsPercentile errors (100 * phi 1) hi ∧
          out.bias.bias[i]? = some (.fin m) ∧ out.bias.resolution[i]? = some (.fin ((hi - lo) / 2)) ∧ 0 ≤ (hi - lo) / 2) := by
  classical
  obtain ⟨gammas, p, e, sp, f⟩ := main_facts h hok
  refine ⟨gammas, _, f.lists, ?_⟩
  have hbi := f.steps.bias
  rw [(masks_eq f).2.2.2, CutOpt.select_map] at hbi
  have hp := f.proper
  have h2 := hp.recoBins.two
  have hinc := hp.recoBins.increasing1.increasing
  have hin : Bench.EmptyOrInside .reco s.recoEnergyBins
      ((gammas.filter fun g => decide (PassesTheta s out.sel g ∧ PassesScore s out.sel g)).map Row.toBench) :=
    selected_bench f.proper (fun g hg => by simpa using (And.right ((List.mem_filter.mp hg).2 |> of_decide_eq_true)))
  obtain ⟨tab, ht, l1, l2, -, hn, hb, hr, hrow⟩ := Bench.C45_rows Bench.nanmedian Bench.interQuantileDistance (fun g => ⟨_, Bench.median_ok g⟩) (fun g => ⟨_, Bench.iqd_ok g⟩) .reco
    ((gammas.filter fun g => decide (PassesTheta s out.sel g ∧ PassesScore s out.sel g)).map Row.toBench) s.recoEnergyBins hinc (by omega) hin
  obtain rfl := Except.ok.inj (ht.symm.trans hbi)
  obtain ⟨tab2, ht2, hb2, hr2, hrow2⟩ := Bench.C45_default_functions .reco
    ((gammas.filter fun g => decide (PassesTheta s out.sel g ∧ PassesScore s out.sel g)).map Row.toBench) s.recoEnergyBins hinc (by omega) hin
  obtain rfl := Except.ok.inj (ht2.symm.trans hbi)
  refine ⟨l1, l2, ?_⟩
  intro i hi
  have a1 := hrow i hi
  have a2 := hrow2 i hi
  simp only [eventsOf_rows] at a1 a2
  generalize hm : eventsWith s gammas (fun g => PassesTheta s out.sel g ∧ PassesScore s out.sel g) i = mine at a1 a2 ⊢
  simp only [List.getElem?_eq_getElem (hn.symm ▸ hi : i < out.bias.nEvents.length), List.getElem?_eq_getElem (hb.symm ▸ hi : i < out.bias.bias.length),
    List.getElem?_eq_getElem (hr.symm ▸ hi : i < out.bias.resolution.length), Option.some.injEq]
  have hfin : ∀ g ∈ mine, ∃ x, (g.toBench).relError = FV.fin x ∧ IsError g x := by
    intro g hg
    rw [← hm] at hg
    obtain ⟨hg1, hg2⟩ := List.mem_filter.mp hg
    simp only [decide_eq_true_eq] at hg2
    obtain ⟨-, hbin⟩ := hg2
    obtain ⟨raw, hraw, hpr⟩ := forall₂_mem f.gammaRows hg1
    have hpos := h.energies raw (by simp [hraw])
    obtain ⟨k1, k2, k3⟩ := hbin
    have hreco : ∃ x, g.recoEnergy = .fin x := by
      obtain ⟨lo, hlo, -⟩ := hp.recoBins.last hi
      rw [List.getD_eq_getElem?_getD, List.getElem?_eq_getElem (by omega)] at hlo
      rw [show s.recoEnergyBins[i] = .fin lo from hlo] at k2
      cases hx : g.recoEnergy with
      | fin x => exact ⟨x, rfl⟩
      | pinf => rw [hx] at k3; cases hy : s.recoEnergyBins[i + 1] <;> rw [hy] at k3 <;> simp [FV.lt] at k3
      | ninf => rw [hx] at k2; simp [FV.le] at k2
      | nan => rw [hx] at k2; simp [FV.le] at k2
    obtain ⟨x, hx⟩ := hreco
    refine ⟨x / raw.trueEnergy - 1, ?_, x, raw.trueEnergy, hx, hpr.energy.1, rfl⟩
    show g.recoEnergy / g.trueEnergy - .fin 1 = _
    rw [hx, hpr.energy.1, FV.fin_div_fin _ _ hpos.ne', FV.fin_sub_fin]
  have herr : ∃ xs : List ℝ, (mine.map Row.toBench).map Bench.Event.relError = xs.map FV.fin ∧ List.Forall₂ IsError mine xs := by
    clear hm a1 a2
    induction mine with
    | nil => exact ⟨[], rfl, .nil⟩
    | cons g l ih =>
      obtain ⟨x, hx, hx2⟩ := hfin g (by simp)
      obtain ⟨xs, e1, e2⟩ := ih fun g' hg' => hfin g' (by simp [hg'])
      exact ⟨x :: xs, by simp only [List.map_cons, hx, e1], .cons hx2 e2⟩
  obtain ⟨xs, e1, e2⟩ := herr
  rw [e1] at a2
  obtain ⟨b1, b2⟩ := a2 (noInf_fin xs)
  rw [numbers_fin] at b1 b2
  refine ⟨by rw [a1.1, List.length_map], ?_, ?_⟩
  · intro hne
    exact a1.2.1 (by rw [hne]; rfl)
  · intro hne
    have hxs : xs ≠ [] := by
      rintro rfl
      cases e2
      exact hne rfl
    obtain ⟨m, lo, hi', c1, c2, c3, c4, c5, c6⟩ := b2 hxs
    exact ⟨xs, m, lo, hi', e2, c1, c2, c3, c4, c5, c6⟩

/-- **C138** (angular resolution) Whenever the script succeeds, the column `angular_resolution_68` of its table has a row per bin of reconstructed energy. Row `i` is about the gammas
that pass the gh cut (not the theta cut) with reconstructed energy in bin `i`: their number; NaN if there are none, and otherwise the `Φ(1) - Φ(-1)` quantile of their thetas. -/
theorem C138_angular_resolution (inp : Input) (h : ProperSimulations inp) (s : Settings) (out : Output s) (hok : main inp = .ok ⟨s, out⟩) :
    ∃ gammas background col, eventLists s inp = .ok (gammas, background) ∧ out.angRes.low = s.recoEnergyBins.dropLast ∧ out.angRes.high = s.recoEnergyBins.tail ∧
      out.angRes.cols 68 = some col ∧
      ∀ i : ℕ, i < s.recoEnergyBins.length - 1 →
        let mine := eventsWith s gammas (PassesScore s out.sel) i
        out.angRes.nEvents[i]? = some mine.length ∧ (mine = [] → col[i]? = some .nan) ∧
        (mine ≠ [] → ∃ (thetas : List ℝ) (v : ℝ), List.Forall₂ (fun g t => g.theta = .fin t) mine thetas ∧
          IsPercentile thetas (100 * (phi 1 - phi (-1))) v ∧ col[i]? = some (.fin v)) := by
  classical
  obtain ⟨gammas, p, e, sp, f⟩ := main_facts h hok
  have hbi := f.steps.angRes
  rw [(masks_eq f).1, CutOpt.select_map] at hbi
  have hp := f.proper
  have h2 := hp.recoBins.two
  have hinc := hp.recoBins.increasing1.increasing
  obtain ⟨tab, ht, hh⟩ := Bench.C46_table .reco [Bench.oneSigmaCoverage] (by intro q hq; obtain rfl := List.mem_singleton.mp hq; exact ⟨Bench.oneSigma_nonneg, Bench.oneSigma_le_one⟩)
    ((gammas.filter fun g => decide (PassesScore s out.sel g)).map Row.toBench) s.recoEnergyBins hinc (by omega)
    (selected_bench f.proper (fun g hg => of_decide_eq_true (List.mem_filter.mp hg).2))
  obtain rfl := Except.ok.inj (ht.symm.trans hbi)
  obtain ⟨l1, l2, col, hcol, hn, hc, hrow⟩ := hh 0 (by simp) (by intro j' h1 h2; simp at h1; omega)
  rw [show Bench.quantileKey [Bench.oneSigmaCoverage][0] = 68 from Bench.C46_default_column.2.2] at hcol
  refine ⟨gammas, _, col, f.lists, l1, l2, hcol, ?_⟩
  intro i hi
  obtain ⟨a1, a2, -, a3⟩ := hrow i hi
  simp only [eventsOf_rows] at a1 a2 a3
  generalize hm : eventsWith s gammas (PassesScore s out.sel) i = mine at a1 a2 a3 ⊢
  simp only [List.getElem?_eq_getElem (hn.symm ▸ hi : i < out.angRes.nEvents.length), List.getElem?_eq_getElem (hc.symm ▸ hi : i < col.length), Option.some.injEq]
  obtain ⟨xs, e1, e2⟩ := fin_list (l := mine) (f := Row.theta) (by
    intro g hg
    rw [← hm] at hg
    obtain ⟨raw, -, hpr⟩ := forall₂_mem f.gammaRows (List.mem_of_mem_filter hg)
    obtain ⟨t, ht, -⟩ := hpr.theta
    exact ⟨t, ht⟩)
  have e3 : (mine.map Row.toBench).map Bench.Event.theta = xs.map FV.fin := by
    rw [← e1, List.map_map]; rfl
  rw [e3, numbers_fin] at a3
  refine ⟨by rw [a1, List.length_map], fun hne => a2 (by rw [hne]; rfl), ?_⟩
  intro hne
  have hxs : xs ≠ [] := by
    rintro rfl
    cases e2
    exact hne rfl
  obtain ⟨v, c1, c2⟩ := a3 (noInf_fin xs) hxs
  exact ⟨xs, v, e2, c2, c1⟩

/-- the concrete run: the background rates of the overflow bin are 0 -/
example : ∃ s out, main (exInput idealRoot) = .ok ⟨s, out⟩ ∧ ∃ (i : Fin (s.recoEnergyBins.length - 1)) (j : Fin (s.backgroundFovBins.length - 1)), out.background i j = .fin 0 := by
  obtain ⟨s, out, h⟩ := exRun
  obtain ⟨g, p, e, sp, f⟩ := main_facts (exInput_proper _) h
  obtain ⟨_, _, -, hh⟩ := C138_background _ (exInput_proper _) s out h
  have h2 := f.proper.recoBins.two
  have h3 := f.proper.backgroundFov.1
  obtain ⟨_, -, -, h4⟩ := hh ⟨s.recoEnergyBins.length - 2, by omega⟩ ⟨0, by omega⟩
  exact ⟨s, out, h, _, _, (h4 (by show s.recoEnergyBins.length - 2 + 2 = _; omega)).2⟩

end Pyirf.Examples
