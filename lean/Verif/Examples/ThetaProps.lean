import Verif.Examples.PrepareProps
import Verif.CutOpt.EfficiencyProps

/-! # Property C132: the theta cuts of the EventDisplay script -/
set_option linter.unusedSectionVars false
set_option linter.unusedSimpArgs false

namespace Pyirf.Examples
open Pyirf Pyirf.Np Pyirf.Binning Pyirf.Cuts Pyirf.Sensitivity Pyirf.CutOpt Pyirf.Simulations Pyirf.Spectral Pyirf.Coords

/-! ## Specification -/

/-- `q` is the initial gh cut: the 60th percentile of the gh scores of all gammas if they are all finite, NaN if one is NaN. -/
structure IsInitialCut (gammas : List Row) (q : FV ℝ) : Prop where
  nan : (∃ g ∈ gammas, g.gh = .nan) → q = .nan
  finite : ∀ xs : List ℝ, gammas.map Row.gh = xs.map FV.fin → ∃ v, q = .fin v ∧ IsPercentile xs 60 v

/-- (theta, reco energy) of the gammas whose gh score is at least `q` -/
noncomputable def passingThetas (gammas : List Row) (q : FV ℝ) : List (FV ℝ × FV ℝ) :=
  (gammas.filter fun g => FV.ge g.gh q).map fun g => (g.theta, g.recoEnergy)

/-- `v` belongs to the energy `x`, given values `f` at the energies `c` (increasing, the last one infinite): linear in the logarithm of the energy between two energies,
constant below the first and above the last finite one. -/
structure LogInterpolated (c : List (FV ℝ)) (f : List ℝ) (x : FV ℝ) (v : ℝ) : Prop where
  below : ∀ a f0, c[0]? = some a → f[0]? = some f0 → FV.le x a = true → v = f0
  between : ∀ (j : ℕ) (a b e fa fb : ℝ), c[j]? = some (.fin a) → c[j + 1]? = some (.fin b) → f[j]? = some fa → f[j + 1]? = some fb →
    x = .fin e → a ≤ e → e ≤ b → v = fa + (fb - fa) * ((Real.log e - Real.log a) / (Real.log b - Real.log a))
  above : ∀ (j : ℕ) (a e fa : ℝ), c[j]? = some (.fin a) → c[j + 1]? = some .pinf → f[j]? = some fa → x = .fin e → a ≤ e → v = fa
  infinite : ∀ (j : ℕ) (fa : ℝ), c[j]? = some .pinf → f[j]? = some fa → x = .pinf → v = fa

/-! ## Lemmas -/

/-- `np.interp` strictly between two nodes -/
theorem interpGo_between (xs fs : List (FV ℝ)) (hs : Increasing1 xs) (hl : fs.length = xs.length) (j : ℕ) (x0 x1 f0 f1 x : FV ℝ)
    (h0 : xs[j]? = some x0) (h1 : xs[j + 1]? = some x1) (g0 : fs[j]? = some f0) (g1 : fs[j + 1]? = some f1)
    (hx0 : FV.lt x0 x = true) (hx1 : FV.lt x x1 = true) : interpGo (xs.zip fs) x = interpSegment x0 f0 x1 f1 x := by
  induction xs generalizing fs j with
  | nil => simp at h0
  | cons a l ih =>
    match fs, hl with
    | [], hl => simp at hl
    | f :: fs, hl =>
      match l, fs, hl with
      | [], _, _ => simp at h1
      | b :: l, [], hl => simp at hl
      | b :: l, f' :: fs, hl =>
        cases j with
        | zero =>
          simp only [List.getElem?_cons_zero, List.getElem?_cons_succ, Option.some.injEq, zero_add] at h0 h1 g0 g1
          subst h0; subst h1; subst g0; subst g1
          have hb : FV.beq x a = false := by
            rw [Bool.eq_false_iff]
            intro h
            rw [((FV.beq_iff x a).mp h).1, FV.lt_irrefl'] at hx0
            exact absurd hx0 (by simp)
          simp [interpGo, hx1, hb]
        | succ j =>
          have hle : FV.le b x = true := by
            refine FV.le_of_lt' ?_
            cases j with
            | zero => simp at h0; subst h0; exact hx0
            | succ j =>
              simp only [List.getElem?_cons_succ] at h0
              have := (List.pairwise_cons.mp hs.tail.2).1 _ (List.mem_of_getElem? h0)
              exact FV.lt_of_lt_of_le' this (FV.le_of_lt' hx0)
          have := ih (f' :: fs) hs.tail (by simpa using hl) j (by simpa using h0) (by simpa using h1) (by simpa using g0) (by simpa using g1)
          simp only [List.zip_cons_cons, interpGo] at this ⊢
          rw [FV.not_lt_of_le hle]
          simpa using this

theorem interp_between (xs fs : List (FV ℝ)) (hs : Increasing1 xs) (hl : fs.length = xs.length) (j : ℕ) (x0 x1 f0 f1 x : FV ℝ)
    (h0 : xs[j]? = some x0) (h1 : xs[j + 1]? = some x1) (g0 : fs[j]? = some f0) (g1 : fs[j + 1]? = some f1)
    (hx0 : FV.lt x0 x = true) (hx1 : FV.lt x x1 = true) : interp (xs.zip fs) x = interpSegment x0 f0 x1 f1 x := by
  have h := interpGo_between xs fs hs hl j x0 x1 f0 f1 x h0 h1 g0 g1 hx0 hx1
  match xs, fs, hl with
  | [], _, _ => simp at h0
  | a :: l, [], hl => simp at hl
  | a :: l, f :: fs, hl =>
    have hn : x.isNan = false := by cases x <;> simp_all [FV.isNan, FV.lt]
    have hle : FV.le a x = true := by
      refine FV.le_of_lt' ?_
      cases j with
      | zero => simp at h0; subst h0; exact hx0
      | succ j =>
        simp only [List.getElem?_cons_succ] at h0
        exact FV.lt_of_lt_of_le' ((List.pairwise_cons.mp hs.2).1 _ (List.mem_of_getElem? h0)) (FV.le_of_lt' hx0)
    unfold interp
    simp only [List.zip_cons_cons, hn, Bool.false_eq_true, if_false, FV.not_lt_of_le hle] at h ⊢
    exact h

/-- interpolation in the logarithm of the energy -/
theorem logInterpolated {B : List (FV ℝ)} (hB : OverflowBins B) (f : List ℝ) (hf : f.length = B.length - 1) {x : FV ℝ} (hx : FV.lt (.fin 0) x = true)
    {v : ℝ} (hv : interp (((binCenter B).map log10F).zip (f.map FV.fin)) (log10F x) = .fin v) : LogInterpolated (binCenter B) f x v := by
  have hinc := log10_increasing hB
  have hlen : (f.map FV.fin).length = ((binCenter B).map log10F).length := by simp [hf, length_binCenter]
  have hpos : ∀ (j : ℕ) (c : FV ℝ), (binCenter B)[j]? = some c → FV.lt (.fin (0:ℝ)) c = true := fun j c h => hB.center_pos (List.mem_of_getElem? h)
  have hget : ∀ (j : ℕ) (c : FV ℝ), (binCenter B)[j]? = some c → ((binCenter B).map log10F)[j]? = some (log10F c) := by intro j c h; simp [h]
  have hgetf : ∀ (j : ℕ) (a : ℝ), f[j]? = some a → (f.map FV.fin)[j]? = some (.fin a) := by intro j a h; simp [h]
  have node : ∀ (j : ℕ) (c : FV ℝ) (a : ℝ), (binCenter B)[j]? = some c → f[j]? = some a → x = c → v = a := by
    rintro j c a h1 h2 rfl
    have := interp_node_fv _ (f.map FV.fin) hinc hlen j _ _ (hget j _ h1) (hgetf j a h2)
    rw [hv] at this
    exact FV.fin.inj this
  refine ⟨?_, ?_, ?_, ?_⟩
  · intro a f0 h1 h2 hle
    by_cases he : x = a
    · exact node 0 a f0 h1 h2 he
    · have hlt : FV.lt x a = true := by
        cases x <;> cases a <;> simp_all [FV.lt, FV.le]
        exact lt_of_le_of_ne hle he
      have h3 := log10F_lt hx hlt
      generalize hc : (binCenter B).map log10F = C at *
      match C, f, hlen with
      | [], _, _ => have := hget 0 _ h1; simp at this
      | c :: C, f' :: fs, hlen =>
        have e1 := hget 0 _ h1
        simp only [List.getElem?_cons_zero, Option.some.injEq] at e1 h2
        subst e1; subst h2
        have hn : (log10F x).isNan = false := by
          have := FV.ne_nan_of_lt h3
          cases hlog : log10F x <;> simp_all [FV.isNan]
        unfold interp at hv
        simp only [List.map_cons, List.zip_cons_cons, hn, Bool.false_eq_true, if_false, h3, if_true] at hv
        exact (FV.fin.inj hv).symm
  · rintro j a b e fa fb h1 h2 h3 h4 rfl hae heb
    have ha : 0 < a := by simpa [FV.lt] using hpos j _ h1
    have hab : a < b := by
      have := (mid_increasing hB.increasing1).2
      obtain ⟨i1, e1⟩ := List.getElem?_eq_some_iff.mp h1
      obtain ⟨i2, e2⟩ := List.getElem?_eq_some_iff.mp h2
      have := List.pairwise_iff_getElem.mp this j (j + 1) i1 i2 (by omega)
      rw [e1, e2] at this
      simpa [FV.lt] using this
    have hlog : Real.log a < Real.log b := Real.log_lt_log ha hab
    rcases eq_or_lt_of_le hae with rfl | hae
    · rw [node j _ fa h1 h3 rfl]; simp
    rcases eq_or_lt_of_le heb with rfl | heb
    · rw [node (j + 1) _ fb h2 h4 rfl, div_self (by linarith)]; ring
    have h5 := interp_between _ (f.map FV.fin) hinc hlen j _ _ _ _ (log10F (.fin e)) (hget j _ h1) (hget (j + 1) _ h2) (hgetf j _ h3) (hgetf (j + 1) _ h4)
      (log10F_lt (hpos j _ h1) (by simpa [FV.lt] using hae)) (log10F_lt hx (by simpa [FV.lt] using heb))
    rw [hv] at h5
    have he : 0 < e := ha.trans hae
    simp only [log10F, ha, he, ha.trans hab, if_true] at h5
    have h10 : Real.logb 10 b - Real.logb 10 a ≠ 0 := by
      have := Real.logb_lt_logb (b := 10) (by norm_num) ha hab
      linarith
    rw [interpSegment_fin _ _ _ h10] at h5
    rw [FV.fin.inj h5]
    simp only [Real.logb]
    have : Real.log 10 ≠ 0 := by
      have := Real.log_pos (show (1:ℝ) < 10 by norm_num)
      linarith
    have h6 : Real.log b - Real.log a ≠ 0 := by linarith
    have h7 : Real.log b / Real.log 10 - Real.log a / Real.log 10 ≠ 0 := by
      rw [← sub_div]; exact div_ne_zero h6 this
    field_simp
    ring
  · rintro j a e fa h1 h2 h3 rfl hae
    have ha : 0 < a := by simpa [FV.lt] using hpos j _ h1
    rcases eq_or_lt_of_le hae with rfl | hae
    · exact node j _ fa h1 h3 rfl
    have hj : j + 1 < f.length := by
      have := (List.getElem?_eq_some_iff.mp h2).1
      rw [length_binCenter] at this
      omega
    have h5 := interp_between _ (f.map FV.fin) hinc hlen j _ _ _ _ (log10F (.fin e)) (hget j _ h1) (hget (j + 1) _ h2) (hgetf j _ h3)
      (hgetf (j + 1) _ (List.getElem?_eq_getElem hj))
      (log10F_lt (hpos j _ h1) (by simpa [FV.lt] using hae)) (log10F_lt hx (by simp [FV.lt]))
    rw [hv] at h5
    have he : 0 < e := ha.trans hae
    simp only [log10F, ha, he, if_true] at h5
    have h6 : ∀ p q : ℝ, interpSegment (.fin p) (.fin fa) .pinf (.fin f[j + 1]) (.fin q) = .fin fa := by
      intro p q
      unfold interpSegment
      have h7 : (FV.pinf - FV.fin p : FV ℝ) = .pinf := rfl
      have h8 : (FV.fin f[j + 1] - FV.fin fa : FV ℝ) / .pinf = .fin 0 := rfl
      rw [h7, h8, FV.fin_sub_fin]
      simp only [FV.fin_mul_fin, FV.fin_add_fin]
      simp [FV.isNan]
    rw [h6] at h5
    exact FV.fin.inj h5
  · rintro j fa h1 h2 rfl
    exact node j _ fa h1 h2 rfl

/-- what `np.quantile` gives -/
theorem npQuantile_spec (s : Settings) (he : s.initialGhCutEfficiency = 0.4) (gammas : List Row) (hne : gammas ≠ []) :
    ∃ q, npQuantile (gammas.map Row.gh) (1 - s.initialGhCutEfficiency) = .ok q ∧ IsInitialCut gammas q := by
  have hne' : gammas.map Row.gh ≠ [] := by simpa using hne
  unfold npQuantile
  rw [if_neg hne']
  by_cases hn : (gammas.map Row.gh).any FV.isNan = true
  · rw [if_pos hn]
    refine ⟨_, rfl, fun _ => rfl, ?_⟩
    intro xs hx
    rw [hx] at hn
    simp [FV.isNan] at hn
  · rw [if_neg hn]
    refine ⟨_, rfl, ?_, ?_⟩
    · rintro ⟨g, hg, h⟩
      exact absurd (by simp only [List.any_map, List.any_eq_true]; exact ⟨g, hg, by simp [h, FV.isNan]⟩) hn
    · intro xs hx
      rw [hx, quantileVal_noInf (by intro v hv; obtain ⟨x, -, rfl⟩ := List.mem_map.mp hv; simp) (by rw [he]; norm_num) (by rw [he]; norm_num)]
      have hd : dropNan (xs.map FV.fin) = xs := by
        unfold dropNan
        rw [List.filterMap_map]
        simp [Function.comp_def]
      have hxs : xs ≠ [] := by rintro rfl; exact hne' (by simpa using hx)
      rw [hd, if_neg hxs, he]
      refine ⟨_, rfl, ?_⟩
      have := isPercentile_of_quantileSorted (p := 60) hxs (by norm_num) (by norm_num)
      rw [show (1 - 0.4 : ℝ) = 60 / 100 by norm_num]
      exact this

theorem eventsIn_finite (gammas : List Row) (hfin : ∀ g ∈ gammas, ∃ x, g.theta = .fin x) (q : FV ℝ) (B : List (FV ℝ)) (j : ℕ) :
    (∀ e ∈ eventsIn B j (passingThetas gammas q), ∃ x, e.1 = .fin x) ∧
    (goodValues (eventsIn B j (passingThetas gammas q))).length = (eventsIn B j (passingThetas gammas q)).length := by
  have h : ∀ e ∈ eventsIn B j (passingThetas gammas q), ∃ x, e.1 = .fin x := by
    intro e he
    have := List.mem_of_mem_filter he
    obtain ⟨g, hg, rfl⟩ := List.mem_map.mp this
    exact hfin g (List.mem_of_mem_filter hg)
  refine ⟨h, ?_⟩
  generalize eventsIn B j (passingThetas gammas q) = l at h
  unfold goodValues
  induction l with
  | nil => rfl
  | cons e l ih =>
    obtain ⟨x, hx⟩ := h e (by simp)
    simp only [List.filterMap_cons, hx, List.length_cons]
    rw [ih (fun e he => h e (by simp [he]))]

theorem clamp_range {a b : ℝ} (h : a ≤ b) (v : ℝ) : a ≤ clamp (some a) (some b) v ∧ clamp (some a) (some b) v ≤ b := by
  unfold clamp
  exact ⟨le_min (le_max_right _ _) h, min_le_right _ _⟩

/-- the whole computation, for proper settings -/
theorem thetaCutsOf_spec {s : Settings} (hp : Proper s) (he : s.initialGhCutEfficiency = 0.4) (gammas : List Row) (hne : gammas ≠ [])
    (hfin : ∀ g ∈ gammas, ∃ x, g.theta = .fin x)
    (hin : ∀ q, npQuantile (gammas.map Row.gh) (1 - s.initialGhCutEfficiency) = .ok q → IsInitialCut gammas q →
      ∃ e ∈ passingThetas gammas q, ∃ i, InBin s.sensitivityBins i e.2) :
    ∃ (t : CutTable ℝ (FV ℝ)) (q : FV ℝ) (coarse fine : List ℝ), thetaCutsOf s gammas = .ok t ∧ IsInitialCut gammas q ∧
      t.low = s.thetaBins.dropLast ∧ t.high = s.thetaBins.tail ∧ t.center = binCenter s.thetaBins ∧ t.cut = fine.map FV.fin ∧
      fine.length = s.thetaBins.length - 1 ∧ coarse.length = s.sensitivityBins.length - 1 ∧
      (∀ (j : ℕ) (v : ℝ), coarse[j]? = some v →
        IsCut (passingThetas gammas q) s.sensitivityBins j s.percentile (some s.thetaMin) (some s.thetaMax) (.fin s.thetaMax) (.fin v)) ∧
      (∀ v ∈ coarse, s.thetaMin ≤ v ∧ v ≤ s.thetaMax) ∧
      ∀ (k : ℕ) (x : FV ℝ) (v : ℝ), (binCenter s.thetaBins)[k]? = some x → fine[k]? = some v →
        LogInterpolated (binCenter s.sensitivityBins) coarse x v ∧ s.thetaMin ≤ v ∧ v ≤ s.thetaMax := by
  obtain ⟨q, hq1, hq2⟩ := npQuantile_spec s he gammas hne
  have hinc := hp.sensitivityBins.increasing1.increasing
  have h2 := hp.sensitivityBins.two
  obtain ⟨tc, ht, -, -, hn, hc, hspec⟩ := C08_table (passingThetas gammas q) s.sensitivityBins (.fin s.thetaMax) s.percentile (some s.thetaMin)
    (some s.thetaMax) 10 hinc (by omega) hp.percentile.1 hp.percentile.2 (hin q hq1 hq2)
  have hcoarse : ∀ j (hj : j < s.sensitivityBins.length - 1), ∃ v, tc.cut[j]? = some (.fin v) ∧
      IsCut (passingThetas gammas q) s.sensitivityBins j s.percentile (some s.thetaMin) (some s.thetaMax) (.fin s.thetaMax) (.fin v) ∧
      s.thetaMin ≤ v ∧ v ≤ s.thetaMax := by
    intro j hj
    obtain ⟨hf, hg⟩ := eventsIn_finite gammas hfin q s.sensitivityBins j
    obtain ⟨a1, a2, a3⟩ := hspec j hj
    rw [a1] at a2 a3
    rw [List.getElem?_eq_getElem (by omega)]
    have hfn : FiniteOrNan (eventsIn s.sensitivityBins j (passingThetas gammas q)) := by
      intro e he
      obtain ⟨x, hx⟩ := hf e he
      simp [hx]
    by_cases h10 : (eventsIn s.sensitivityBins j (passingThetas gammas q)).length < 10
    · refine ⟨s.thetaMax, by rw [a2 (Or.inr (by exact_mod_cast h10))], ⟨fun _ => rfl, fun h => by omega, fun h => by omega⟩, hp.theta, le_refl _⟩
    · have hgood : goodValues (eventsIn s.sensitivityBins j (passingThetas gammas q)) ≠ [] := by
        intro h; rw [h] at hg; simp at hg; omega
      have hip := isPercentile_of_quantileSorted hgood hp.percentile.1 hp.percentile.2
      refine ⟨_, congrArg some ((a3 (by omega) (by omega) hfn).2 _ hgood hip), ⟨fun h => absurd h h10, fun _ _ h => absurd h hgood, fun _ _ _ => ⟨_, hip, rfl⟩⟩,
        clamp_range hp.theta _⟩
  choose! co hco using hcoarse
  set coarse := (List.range (s.sensitivityBins.length - 1)).map co with hcdef
  have hcl : coarse.length = s.sensitivityBins.length - 1 := by simp [hcdef]
  have hcut : tc.cut = coarse.map FV.fin := by
    apply List.ext_getElem?
    intro j
    by_cases hj : j < s.sensitivityBins.length - 1
    · rw [(hco j hj).1]
      simp [hcdef, hj]
    · rw [List.getElem?_eq_none (by omega), List.getElem?_eq_none (by simp [hcdef]; omega)]
  have hcoarse : ∀ (j : ℕ) (v : ℝ), coarse[j]? = some v → j < s.sensitivityBins.length - 1 ∧ v = co j := by
    intro j v h
    have hj : j < s.sensitivityBins.length - 1 := by rw [← hcl]; exact (List.getElem?_eq_some_iff.mp h).1
    refine ⟨hj, ?_⟩
    simp [hcdef, hj] at h
    exact h.symm
  have hrange : ∀ v ∈ coarse, s.thetaMin ≤ v ∧ v ≤ s.thetaMax := by
    intro v hv
    obtain ⟨j, hj⟩ := List.getElem?_of_mem hv
    obtain ⟨hj', rfl⟩ := hcoarse j v hj
    exact (hco j hj').2.2
  have hfine : ∀ x ∈ binCenter s.thetaBins, ∃ v, interp (((binCenter s.sensitivityBins).map log10F).zip tc.cut) (log10F x) = .fin v ∧
      s.thetaMin ≤ v ∧ v ≤ s.thetaMax := by
    intro x hx
    rw [hcut]
    refine interpFV_bounds _ (log10_increasing hp.sensitivityBins) ?_ _ (log10F_ok (hp.thetaBins.center_pos hx)).1 coarse
      (by simp [hcl, length_binCenter]) _ _ hrange
    intro h
    have := congrArg List.length h
    simp [length_binCenter] at this
    omega
  choose! fi hfi using hfine
  refine ⟨⟨s.thetaBins.dropLast, s.thetaBins.tail, binCenter s.thetaBins, [],
      (binCenter s.thetaBins).map fun x => interp (((binCenter s.sensitivityBins).map log10F).zip tc.cut) (log10F x)⟩,
    q, coarse, (binCenter s.thetaBins).map fi, ?_, hq2, rfl, rfl, rfl, ?_, by simp [length_binCenter], hcl, ?_, hrange, ?_⟩
  · unfold thetaCutsOf
    rw [hq1]
    show (percentileCut (passingThetas gammas q) s.sensitivityBins (.fin s.thetaMax) s.percentile (some (.fin s.thetaMin)) (some (.fin s.thetaMax))
      minEventsDefault >>= _) = _
    have ht' : percentileCut (passingThetas gammas q) s.sensitivityBins (.fin s.thetaMax) s.percentile (some (.fin s.thetaMin)) (some (.fin s.thetaMax))
      minEventsDefault = .ok tc := ht
    rw [ht']
    rfl
  · show _ = List.map FV.fin (List.map fi _)
    rw [List.map_map]
    apply List.map_congr_left
    intro x hx
    exact (hfi x hx).1
  · intro j v h
    obtain ⟨hj, rfl⟩ := hcoarse j v h
    exact (hco j hj).2.1
  · intro k x v hx hv
    have hxm := List.mem_of_getElem? hx
    simp only [List.getElem?_map, hx, Option.map_some, Option.some.injEq] at hv
    subst hv
    have h1 := hfi x hxm
    refine ⟨logInterpolated hp.sensitivityBins coarse hcl (hp.thetaBins.center_pos hxm) ?_, h1.2⟩
    rw [← hcut]
    exact h1.1

theorem forall₂_mem {α β : Type} {P : α → β → Prop} {l : List α} {r : List β} (h : List.Forall₂ P l r) {b : β} (hb : b ∈ r) : ∃ a ∈ l, P a b := by
  induction h with
  | nil => simp at hb
  | cons h1 _ ih =>
    rcases List.mem_cons.mp hb with rfl | hb
    · exact ⟨_, by simp, h1⟩
    · obtain ⟨a, ha, hp⟩ := ih hb
      exact ⟨a, by simp [ha], hp⟩

/-- all event lists have finite thetas -/
theorem prepared_finite {info : Info} {flux : ℝ → ℝ} {particle : String} {l : List Raw} {r : List Row} (h : List.Forall₂ (IsPrepared info flux particle) l r) :
    ∀ g ∈ r, ∃ x, g.theta = .fin x := by
  intro g hg
  obtain ⟨e, -, hp⟩ := forall₂_mem h hg
  obtain ⟨t, ht, -⟩ := hp.theta
  exact ⟨t, ht⟩

/-! ## C132 -/

/-- **C132** (theta cuts) Whenever the script succeeds: the THETA_CUTS table has a row for each of the fine energy bins, with its edges and centre, and a cut that is a
number between 0.05 and 0.32 deg. The cuts are linear in the logarithm of the energy between the centres of the sensitivity bins, and constant outside; at those centres
they are the cuts `coarse`: in each sensitivity bin the 68 percent containment of theta, clamped to 0.05 ... 0.32 deg, of the gammas whose gh score is at least the
initial gh cut (which 40 percent of all gammas pass), or 0.32 deg if less than 10 of these are in the bin. -/
theorem C132_theta_cuts (inp : Input) (h : ProperSimulations inp) (s : Settings) (out : Output s) (hok : main inp = .ok ⟨s, out⟩) :
    ∃ gammas background, eventLists s inp = .ok (gammas, background) ∧ ∃ (q : FV ℝ) (coarse fine : List ℝ), IsInitialCut gammas q ∧
      out.sel.thetaCuts.low = s.thetaBins.dropLast ∧ out.sel.thetaCuts.high = s.thetaBins.tail ∧ out.sel.thetaCuts.center = binCenter s.thetaBins ∧
      out.sel.thetaCuts.cut = fine.map FV.fin ∧ fine.length = s.thetaBins.length - 1 ∧ coarse.length = s.sensitivityBins.length - 1 ∧
      (∀ (j : ℕ) (v : ℝ), coarse[j]? = some v →
        IsCut (passingThetas gammas q) s.sensitivityBins j 68 (some (0.05 * deg)) (some (0.32 * deg)) (.fin (0.32 * deg)) (.fin v)) ∧
      ∀ (k : ℕ) (x : FV ℝ) (v : ℝ), (binCenter s.thetaBins)[k]? = some x → fine[k]? = some v →
        LogInterpolated (binCenter s.sensitivityBins) coarse x v ∧ 0.05 * deg ≤ v ∧ v ≤ 0.32 * deg := by
  obtain ⟨gammas, background, spectrum, hs, hev, -, hst⟩ := main_steps hok
  obtain ⟨s', hs', hp, h1, h2, -, h3, h4⟩ := settings_ok
  obtain rfl := Except.ok.inj (hs'.symm.trans hs)
  obtain ⟨s'', hs'', hT⟩ := settings_tObs
  obtain rfl := Except.ok.inj (hs''.symm.trans hs)
  obtain ⟨g, p, e, hev', hg, -⟩ := eventLists_spec inp h _ hT
  have hgg : gammas = g := congrArg Prod.fst (Except.ok.inj (hev.symm.trans hev'))
  subst hgg
  obtain ⟨t, ht, -⟩ := bind_ok hst.selection
  have hne : gammas ≠ [] := by
    rintro rfl
    unfold thetaCutsOf npQuantile at ht
    cases ht
  obtain ⟨t', q, coarse, fine, ht', hq, a1, a2, a3, a4, a5, a6, a7, -, a9⟩ := thetaCutsOf_spec hp h3 gammas hne (prepared_finite hg) (by
    intro q hq _
    by_contra hno
    have hnone := (C08_no_event_in_bins (passingThetas gammas q) s''.sensitivityBins (.fin s''.thetaMax) s''.percentile [] (some (.fin s''.thetaMin))
      (some (.fin s''.thetaMax)) minEventsDefault hp.sensitivityBins.increasing1.increasing (by have := hp.sensitivityBins.two; omega)
      (fun e he i hi => hno ⟨e, he, i, hi⟩)).1
    unfold thetaCutsOf at ht
    rw [hq] at ht
    obtain ⟨_, ht, -⟩ := bind_ok (show (percentileCut (passingThetas gammas q) s''.sensitivityBins (.fin s''.thetaMax) s''.percentile (some (.fin s''.thetaMin))
      (some (.fin s''.thetaMax)) minEventsDefault >>= _) = _ from ht)
    rw [hnone] at ht
    cases ht)
  have htt : out.sel.thetaCuts = t' := by
    have hsel := hst.selection
    unfold selection at hsel
    rw [ht'] at hsel
    obtain ⟨_, e0, hsel⟩ := bind_ok hsel
    obtain rfl := Except.ok.inj e0
    obtain ⟨_, _, hsel⟩ := bind_ok hsel
    obtain ⟨_, _, hsel⟩ := bind_ok hsel
    obtain ⟨_, _, hsel⟩ := bind_ok hsel
    obtain ⟨_, _, hsel⟩ := bind_ok hsel
    rw [← Except.ok.inj hsel]
  rw [h1, h2, h4] at a7
  rw [h1, h2] at a9
  rw [htt]
  exact ⟨gammas, background, hev, q, coarse, fine, hq, a1, a2, a3, a4, a5, a6, a7, a9⟩

/-- **C132** (no gammas) Without gamma events the script fails with an IndexError in `np.quantile`. -/
theorem C132_no_gammas (inp : Input) (h : ProperSimulations inp) (he : inp.gammas = []) : main inp = .error .indexError := by
  obtain ⟨s, hs, hT⟩ := settings_tObs
  obtain ⟨c, hc, -⟩ := crab_flux
  obtain ⟨g, p, e, hev, hg, -⟩ := eventLists_spec inp h _ hT
  rw [he] at hg
  cases hg
  unfold main
  rw [hs]
  simp only [bind, Except.bind, hev, hc]
  unfold analyse selection thetaCutsOf npQuantile
  simp [bind, Except.bind]

end Pyirf.Examples
