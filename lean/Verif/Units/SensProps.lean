import Verif.Units.SensModel
import Verif.Units.BgProps

/-!
# C155: `check_histograms` and `calculate_sensitivity` do not depend on the units of the bins
-/
set_option linter.unusedSectionVars false
set_option linter.unusedSimpArgs false

namespace Pyirf.Units
open Pyirf Pyirf.Np Pyirf.Io Pyirf.Sensitivity Pyirf.Utils
open Pyirf.Cuts (scale_pinf scale_ninf scale_scale isNan_scale lt_scale le_scale)

/-! ## Specification -/

/-- Two histograms with the same content, whose bins are the same quantities in other units. -/
def SameHist (h h' : TableQ) : Prop := SameU h.unit h'.unit ∧ h.si = h'.si

/-- The histogram has the columns of the bins. -/
def HasBins (t : Table (FV ℝ)) : Prop := "reco_energy_low" ∈ t.names ∧ "reco_energy_center" ∈ t.names ∧ "reco_energy_high" ∈ t.names

/-! ## Lemmas -/

/-- `n` is the name of a column of the bins -/
def isBin (n : String) : Prop := n = "reco_energy_low" ∨ n = "reco_energy_high" ∨ n = "reco_energy_center"

instance (n : String) : Decidable (isBin n) := by unfold isBin; infer_instance

theorem find_map {α : Type} (l : List (String × α)) (f : String × α → String × α) (hf : ∀ c, (f c).1 = c.1) (name : String) :
    (l.map f).find? (fun c => decide (c.1 = name)) = (l.find? (fun c => decide (c.1 = name))).map f := by
  induction l with
  | nil => rfl
  | cons c l ih =>
    rw [List.map_cons, List.find?_cons, List.find?_cons, hf]
    by_cases h : c.1 = name
    · simp [h]
    · simp only [h, decide_false]; exact ih

theorem get_scale (k : ℝ) (t : Table (FV ℝ)) (name : String) :
    (scaleBinColumns k t).get name = (t.get name).map fun col => if isBin name then col.map (FV.fin k * ·) else col := by
  unfold Table.get scaleBinColumns
  simp only
  rw [find_map _ _ (fun c => by split_ifs <;> rfl)]
  cases h : t.cols.find? (fun c => decide (c.1 = name)) with
  | none => rfl
  | some c =>
    have hc : c.1 = name := by
      have := List.find?_some h
      simpa using this
    subst hc
    show Except.ok _ = Except.ok _
    congr 1
    by_cases hb : isBin c.1
    · simp only [if_pos hb, if_pos (show c.1 = "reco_energy_low" ∨ c.1 = "reco_energy_high" ∨ c.1 = "reco_energy_center" from hb)]
    · simp only [if_neg hb, if_neg (show ¬ (c.1 = "reco_energy_low" ∨ c.1 = "reco_energy_high" ∨ c.1 = "reco_energy_center") from hb)]

theorem get_scale_other (k : ℝ) (t : Table (FV ℝ)) {name : String} (h : ¬ isBin name) : (scaleBinColumns k t).get name = t.get name := by
  rw [get_scale]
  cases t.get name with
  | error e => rfl
  | ok c => simp only [Except.map, if_neg h]

theorem get_scale_bin (k : ℝ) (t : Table (FV ℝ)) {name : String} (h : isBin name) : (scaleBinColumns k t).get name = (t.get name).map (List.map (FV.fin k * ·)) := by
  rw [get_scale]
  simp only [if_pos h]

theorem names_scale (k : ℝ) (t : Table (FV ℝ)) : (scaleBinColumns k t).names = t.names := by
  unfold scaleBinColumns Table.names
  rw [List.map_map]
  apply List.map_congr_left
  intro c _
  simp only [Function.comp]
  split_ifs <;> rfl

theorem set_scale (k : ℝ) (t : Table (FV ℝ)) {name : String} (h : ¬ isBin name) (col : List (FV ℝ)) : scaleBinColumns k (t.set name col) = (scaleBinColumns k t).set name col := by
  unfold Table.set
  rw [names_scale]
  split_ifs with hm
  · unfold scaleBinColumns
    simp only [List.map_map]
    congr 1
    apply List.map_congr_left
    intro c _
    simp only [Function.comp]
    by_cases hc : c.1 = name
    · have hb : ¬ (name = "reco_energy_low" ∨ name = "reco_energy_high" ∨ name = "reco_energy_center") := h
      simp only [hc, if_true, if_neg hb]
    · simp only [if_neg hc]
      by_cases hb : c.1 = "reco_energy_low" ∨ c.1 = "reco_energy_high" ∨ c.1 = "reco_energy_center"
      · simp only [if_pos hb, if_neg hc]
      · simp only [if_neg hb, if_neg hc]
  · unfold scaleBinColumns
    simp only [List.map_append, List.map_cons, List.map_nil]
    have hb : ¬ (name = "reco_energy_low" ∨ name = "reco_energy_high" ∨ name = "reco_energy_center") := h
    rw [if_neg hb]

theorem not_bin_of_copied {name : String} (h : copied name = true) : ¬ isBin name := by
  rintro (rfl | rfl | rfl) <;> exact absurd h (by decide)

theorem copied_scale (k : ℝ) (cols : List (String × List (FV ℝ))) :
    ((scaleBinColumns k ⟨cols⟩).cols.filter fun c => copied c.1) = cols.filter fun c => copied c.1 := by
  unfold scaleBinColumns
  simp only
  induction cols with
  | nil => rfl
  | cons c l ih =>
    rw [List.map_cons, List.filter_cons, List.filter_cons, ih]
    by_cases hb : c.1 = "reco_energy_low" ∨ c.1 = "reco_energy_high" ∨ c.1 = "reco_energy_center"
    · have hn : copied c.1 = false := by
        by_contra hx
        exact not_bin_of_copied (by simpa using hx) hb
      rw [if_pos hb]
      simp only [hn, Bool.false_eq_true, if_false]
    · rw [if_neg hb]

theorem fold_scale (k : ℝ) (l : List (String × List (FV ℝ))) (hl : ∀ c ∈ l, copied c.1 = true) (t : Table (FV ℝ)) :
    scaleBinColumns k (l.foldl (fun t c => t.set c.1 c.2) t) = l.foldl (fun t c => t.set c.1 c.2) (scaleBinColumns k t) := by
  induction l generalizing t with
  | nil => rfl
  | cons c l ih =>
    rw [List.foldl_cons, List.foldl_cons, ih (fun d hd => hl d (List.mem_cons_of_mem _ hd)), set_scale _ _ (not_bin_of_copied (hl c List.mem_cons_self))]

theorem allEqual_scale {k : ℝ} (hk : 0 < k) (a b : List (FV ℝ)) : allEqual (a.map (FV.fin k * ·)) (b.map (FV.fin k * ·)) = allEqual a b := by
  have e1 : ∀ (x : FV ℝ) (l : List (FV ℝ)), (l.map (FV.fin k * ·)).all (fun y => FV.beq (FV.fin k * x) y) = l.all (fun y => FV.beq x y) := fun x l => by
    rw [List.all_map]; congr 1; funext y; exact beq_scale hk x y
  have e2 : ∀ (y : FV ℝ) (l : List (FV ℝ)), (l.map (FV.fin k * ·)).all (fun x => FV.beq x (FV.fin k * y)) = l.all (fun x => FV.beq x y) := fun y l => by
    rw [List.all_map]; congr 1; funext x; exact beq_scale hk x y
  unfold allEqual
  rw [List.length_map, List.length_map, List.zipWith_map]
  simp only [beq_scale hk]
  split_ifs with h
  · rfl
  · match a, b with
    | [], [] => rfl
    | [], [y] => exact e2 y []
    | [], _ :: _ :: _ => rfl
    | [x], b => exact e1 x b
    | _ :: _ :: _, [] => rfl
    | x :: x' :: l, [y] => exact e2 y (x :: x' :: l)
    | _ :: _ :: _, _ :: _ :: _ => rfl

theorem checkColumn_si (h1 h2 : TableQ) (p1 : 0 < h1.unit.scale) (p2 : 0 < h2.unit.scale) {name : String} (hb : isBin name) :
    (h1.unit.dim = h2.unit.dim → checkColumnQ h1 h2 name = checkColumn h1.si h2.si name) ∧
    (h1.unit.dim ≠ h2.unit.dim → name ∈ h1.table.names → name ∈ h2.table.names → checkColumnQ h1 h2 name = .error .valueError) := by
  have hget : ∀ t : Table (FV ℝ), name ∈ t.names → ∃ c, t.get name = .ok c := by
    intro t ht
    unfold Table.get
    cases h : t.cols.find? (fun c => decide (c.1 = name)) with
    | some c => exact ⟨_, rfl⟩
    | none =>
      exfalso
      rw [List.find?_eq_none] at h
      obtain ⟨c, hc, e⟩ := List.mem_map.1 ht
      exact h c hc (by simpa using e)
  constructor
  · intro hd
    unfold checkColumnQ checkColumn TableQ.si
    rw [get_scale_bin _ _ hb, get_scale_bin _ _ hb]
    cases h1.table.get name with
    | error e => rfl
    | ok a =>
      cases h2.table.get name with
      | error e => rfl
      | ok b =>
        show ite (h1.unit.dim = h2.unit.dim ∧ allEqual a (b.map (conv h2.unit h1.unit)) = true) _ _ = ite (allEqual (a.map _) (b.map _) = true) _ _
        have e : b.map (FV.fin h2.unit.scale * ·) = (b.map (conv h2.unit h1.unit)).map (FV.fin h1.unit.scale * ·) := by
          rw [List.map_map]
          apply List.map_congr_left
          intro x _
          exact (si_conv p1 x).symm
        rw [e, allEqual_scale p1]
        simp only [hd, true_and]
  · intro hd hn1 hn2
    obtain ⟨a, ha⟩ := hget _ hn1
    obtain ⟨b, hb'⟩ := hget _ hn2
    unfold checkColumnQ
    rw [ha, hb']
    exact if_neg fun h => hd h.1

/-- the estimate has the bins as given -/
theorem estimateBackgroundQ_unit {t : OffTable} {bins : Q (List (FV ℝ))} {cuts : ThetaTable} {alpha : FV ℝ} {a b : Q (FV ℝ)} {q : TableQ} (h : estimateBackgroundQ t bins cuts alpha a b = .ok q) :
    q.unit = bins.unit := by
  unfold estimateBackgroundQ at h
  simp only [checkDim_bind] at h
  split_ifs at h
  all_goals
    first
      | (cases h; done)
      | (revert h
         generalize Binning.createHistogramTable (K := ℝ) _ _ = r
         intro h
         cases r with
         | error e => cases h
         | ok v =>
           simp only [bind, Except.bind] at h
           first
             | (cases h; done)
             | (injection h with h; rw [← h]; done))

/-! ## Theorems -/

/-- **C155** (check_histograms) Bins of the same dimension are compared as in SI units. Bins of another dimension count as different: a ValueError, not a UnitsError. -/
theorem C155_check_histograms (h1 h2 : TableQ) (p1 : 0 < h1.unit.scale) (p2 : 0 < h2.unit.scale) :
    (h1.unit.dim = h2.unit.dim → checkHistogramsQ h1 h2 = checkHistograms h1.si h2.si) ∧
    (h1.unit.dim ≠ h2.unit.dim → HasBins h1.table → HasBins h2.table → checkHistogramsQ h1 h2 = .error .valueError) := by
  constructor
  · intro hd
    unfold checkHistogramsQ checkHistograms
    rw [(checkColumn_si h1 h2 p1 p2 (Or.inl rfl)).1 hd, (checkColumn_si h1 h2 p1 p2 (Or.inr (Or.inr rfl))).1 hd, (checkColumn_si h1 h2 p1 p2 (Or.inr (Or.inl rfl))).1 hd]
    rfl
  · intro hd ha hb
    unfold checkHistogramsQ
    rw [(checkColumn_si h1 h2 p1 p2 (Or.inl rfl)).2 hd ha.1 hb.1]
    rfl

/-- **C155** (calculate_sensitivity) The table in SI units is the one of the histograms in SI units: the bins of the signal, and the same counts, significances and sensitivities; with the same errors. -/
theorem C155_sensitivity_si (brentq : RootFn) (sig : SigFn) (signal background : TableQ) (alpha : FV ℝ) (th : Thresholds) (p1 : 0 < signal.unit.scale) (p2 : 0 < background.unit.scale)
    (hd : signal.unit.dim = background.unit.dim) :
    (calculateSensitivityQ brentq sig signal background alpha th).map TableQ.si = calculateSensitivity brentq sig signal.si background.si alpha th ∧
    ∀ q, calculateSensitivityQ brentq sig signal background alpha th = .ok q → q.unit = signal.unit := by
  have nb : ∀ n, n = "n_weighted" ∨ n = "n" ∨ n = "significance" ∨ n = "relative_sensitivity" ∨ n = "n_signal_weighted" ∨ n = "n_background_weighted" → ¬ isBin n := by
    rintro n (rfl | rfl | rfl | rfl | rfl | rfl) <;> decide
  unfold calculateSensitivityQ calculateSensitivity
  rw [(C155_check_histograms signal background p1 p2).1 hd]
  have g1 : signal.si.get "n_weighted" = signal.table.get "n_weighted" := get_scale_other _ _ (nb _ (by simp))
  have g2 : background.si.get "n_weighted" = background.table.get "n_weighted" := get_scale_other _ _ (nb _ (by simp))
  have g3 : signal.si.get "n" = signal.table.get "n" := get_scale_other _ _ (nb _ (by simp))
  have g4 : background.si.get "n" = background.table.get "n" := get_scale_other _ _ (nb _ (by simp))
  have g5 : signal.si.get "reco_energy_low" = (signal.table.get "reco_energy_low").map (List.map (FV.fin signal.unit.scale * ·)) := get_scale_bin _ _ (by decide)
  have g6 : signal.si.get "reco_energy_high" = (signal.table.get "reco_energy_high").map (List.map (FV.fin signal.unit.scale * ·)) := get_scale_bin _ _ (by decide)
  have g7 : signal.si.get "reco_energy_center" = (signal.table.get "reco_energy_center").map (List.map (FV.fin signal.unit.scale * ·)) := get_scale_bin _ _ (by decide)
  have g8 : background.si.cols.filter (fun c => copied c.1) = background.table.cols.filter (fun c => copied c.1) := copied_scale _ _
  rw [g1, g2, g3, g4, g5, g6, g7, g8]
  cases checkHistograms signal.si background.si with
  | error e => exact ⟨rfl, fun q h => by cases h⟩
  | ok _ =>
    cases signal.table.get "n_weighted" with
    | error e => exact ⟨rfl, fun q h => by cases h⟩
    | ok sW =>
      cases background.table.get "n_weighted" with
      | error e => exact ⟨rfl, fun q h => by cases h⟩
      | ok bW =>
        simp only [bind, Except.bind]
        cases relativeSensitivity brentq sig (colAxpy sW alpha bW) bW alpha th with
        | error e => exact ⟨rfl, fun q h => by cases h⟩
        | ok rel =>
          cases signal.table.get "reco_energy_low" with
          | error e => exact ⟨rfl, fun q h => by cases h⟩
          | ok low =>
            cases signal.table.get "reco_energy_high" with
            | error e => exact ⟨rfl, fun q h => by cases h⟩
            | ok high =>
              cases signal.table.get "reco_energy_center" with
              | error e => exact ⟨rfl, fun q h => by cases h⟩
              | ok center =>
                cases signal.table.get "n" with
                | error e => exact ⟨rfl, fun q h => by cases h⟩
                | ok sN =>
                  cases background.table.get "n" with
                  | error e => exact ⟨rfl, fun q h => by cases h⟩
                  | ok bN =>
                    simp only [Except.map]
                    set base : Table (FV ℝ) := ⟨[("reco_energy_low", low), ("reco_energy_high", high), ("reco_energy_center", center), ("n_signal", colMul sN rel), ("n_signal_weighted", colMul sW rel),
                      ("n_background", bN), ("n_background_weighted", bW)]⟩ with hbase
                    have hb2 : (⟨[("reco_energy_low", low.map (FV.fin signal.unit.scale * ·)), ("reco_energy_high", high.map (FV.fin signal.unit.scale * ·)),
                      ("reco_energy_center", center.map (FV.fin signal.unit.scale * ·)), ("n_signal", colMul sN rel), ("n_signal_weighted", colMul sW rel), ("n_background", bN),
                      ("n_background_weighted", bW)]⟩ : Table (FV ℝ)) = scaleBinColumns signal.unit.scale base := by
                      rw [hbase]; rfl
                    rw [hb2, ← fold_scale _ _ (fun c hc => (List.mem_filter.1 hc).2)]
                    set full := (background.table.cols.filter fun c => copied c.1).foldl (fun t c => t.set c.1 c.2) base
                    rw [get_scale_other _ _ (nb "n_signal_weighted" (by simp)), get_scale_other _ _ (nb "n_background_weighted" (by simp))]
                    cases full.get "n_signal_weighted" with
                    | error e => exact ⟨rfl, fun q h => by cases h⟩
                    | ok sigW =>
                      cases full.get "n_background_weighted" with
                      | error e => exact ⟨rfl, fun q h => by cases h⟩
                      | ok bkgW =>
                        refine ⟨?_, fun q h => by injection h with h; rw [← h]⟩
                        show Except.ok (scaleBinColumns signal.unit.scale _) = Except.ok _
                        congr 1
                        rw [set_scale _ _ (nb _ (by simp)), set_scale _ _ (nb _ (by simp))]

/-- **C155** (other dimensions) A background whose bins have another dimension than those of the signal raises a ValueError. -/
theorem C155_sensitivity_dims (brentq : RootFn) (sig : SigFn) (signal background : TableQ) (alpha : FV ℝ) (th : Thresholds) (p1 : 0 < signal.unit.scale) (p2 : 0 < background.unit.scale)
    (hd : signal.unit.dim ≠ background.unit.dim) (hs : HasBins signal.table) (hb : HasBins background.table) : calculateSensitivityQ brentq sig signal background alpha th = .error .valueError := by
  unfold calculateSensitivityQ
  rw [(C155_check_histograms signal background p1 p2).2 hd hs hb]
  rfl

/-- **C155** (same quantities) Histograms with the same content and the same bins in other units give the same sensitivities, significances and counts, and bins that are the same quantities. -/
theorem C155_sensitivity (brentq : RootFn) (sig : SigFn) {signal signal' background background' : TableQ} (alpha : FV ℝ) (th : Thresholds) (h1 : SameHist signal signal') (h2 : SameHist background background')
    (hd : signal.unit.dim = background.unit.dim) :
    (calculateSensitivityQ brentq sig signal background alpha th).map TableQ.si = (calculateSensitivityQ brentq sig signal' background' alpha th).map TableQ.si := by
  rw [(C155_sensitivity_si brentq sig signal background alpha th h1.1.2.1 h2.1.2.1 hd).1,
    (C155_sensitivity_si brentq sig signal' background' alpha th h1.1.2.2 h2.1.2.2 (by rw [← h1.1.1, ← h2.1.1, hd])).1, h1.2, h2.2]

/-- **C155** (from events to sensitivities) A signal histogram in any unit and a background estimated from events, bins, cuts and a ring in any units give the same sensitivities as the same data in other units. -/
theorem C155_pipeline (brentq : RootFn) (sig : SigFn) {signal signal' : TableQ} (hs : SameHist signal signal') {t u : OffTable} (ht : SameOff t u) {bins bins' : Q (List (FV ℝ))} (hb : SameL bins bins')
    {cuts cuts' : ThetaTable} (hc : SameTheta cuts cuts') (alpha : FV ℝ) {offMin offMin' offMax offMax' : Q (FV ℝ)} (hmn : SameQ offMin offMin') (hmx : SameQ offMax offMax') (th : Thresholds)
    (hd : signal.unit.dim = bins.unit.dim) :
    ((estimateBackgroundQ t bins cuts alpha offMin offMax).bind fun bg => (calculateSensitivityQ brentq sig signal bg alpha th).map TableQ.si) =
      ((estimateBackgroundQ u bins' cuts' alpha offMin' offMax').bind fun bg => (calculateSensitivityQ brentq sig signal' bg alpha th).map TableQ.si) := by
  have key := C153_background ht hb hc alpha hmn hmx
  have unitOf := @estimateBackgroundQ_unit
  cases hx : estimateBackgroundQ t bins cuts alpha offMin offMax with
  | error e =>
    rw [hx] at key
    cases hy : estimateBackgroundQ u bins' cuts' alpha offMin' offMax' with
    | error e' =>
      rw [hy] at key
      injection key with key
      rw [key]; rfl
    | ok q => rw [hy] at key; cases key
  | ok q =>
    rw [hx] at key
    cases hy : estimateBackgroundQ u bins' cuts' alpha offMin' offMax' with
    | error e' => rw [hy] at key; cases key
    | ok q' =>
      rw [hy] at key
      injection key with key
      have u1 := unitOf hx
      have u2 := unitOf hy
      exact C155_sensitivity brentq sig alpha th hs ⟨by rw [u1, u2]; exact hb.1, key⟩ (by rw [u1]; exact hd)

/-! ## The hypotheses can be met -/

/-- the same histogram with bins in two units -/
example : SameHist ⟨⟨⟨2, 1, -2, 0⟩, 1000⟩, ⟨[("reco_energy_low", [.fin 1]), ("reco_energy_high", [.fin 2]), ("reco_energy_center", [.fin (3 / 2)]), ("n", [.fin 7]), ("n_weighted", [.fin 5])]⟩⟩
    ⟨⟨⟨2, 1, -2, 0⟩, 1⟩, ⟨[("reco_energy_low", [.fin 1000]), ("reco_energy_high", [.fin 2000]), ("reco_energy_center", [.fin 1500]), ("n", [.fin 7]), ("n_weighted", [.fin 5])]⟩⟩ := by
  refine ⟨⟨rfl, ?_, ?_⟩, ?_⟩
  · show (0 : ℝ) < 1000; norm_num
  · show (0 : ℝ) < 1; norm_num
  · unfold TableQ.si scaleBinColumns
    simp
    norm_num

example : HasBins ⟨[("reco_energy_low", [.fin 1]), ("reco_energy_high", [.fin 2]), ("reco_energy_center", [.fin (3 / 2)]), ("n", [.fin 7]), ("n_weighted", [.fin 5])]⟩ := by
  refine ⟨?_, ?_, ?_⟩ <;> simp [Table.names]

end Pyirf.Units
