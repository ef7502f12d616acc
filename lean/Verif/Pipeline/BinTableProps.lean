import Verif.Bench.BiasProps
import Verif.CutOpt.ReapplyProps
import Verif.Cuts.SmoothProps

/-!
# The energy bins of every binned table (C131)

Histograms, cut tables, background estimates, sensitivities, optimised sensitivities, bias/resolution and angular resolution tables all have one row
per bin: its lower edge, its upper edge and its middle.
-/
set_option linter.unusedSectionVars false
set_option linter.unusedSimpArgs false

namespace Pyirf.Pipeline
open Pyirf Pyirf.Np Pyirf.Binning Pyirf.Cuts Pyirf.Sensitivity Pyirf.CutOpt Pyirf.Bench

/-! ## Specification -/

/-- One row per bin of the edges `E`: lower edge, upper edge, and the middle of the bin. -/
structure RowsAreBins (E : List (FV ℝ)) (low high center : List (FV ℝ)) : Prop where
  /-- as many rows as bins -/
  length : low.length = E.length - 1 ∧ high.length = E.length - 1 ∧ center.length = E.length - 1
  /-- row `i` is bin `i` -/
  row : ∀ (i : ℕ) (h : i + 1 < E.length), low[i]? = some E[i] ∧ high[i]? = some E[i + 1] ∧
    center[i]? = some (middle E[i] E[i + 1])

/-- The energy columns of a table are the bins of the edges `E`. -/
def TableOfBins (E : List (FV ℝ)) (t : Table (FV ℝ)) : Prop :=
  ∃ low high center, t.get "reco_energy_low" = .ok low ∧ t.get "reco_energy_high" = .ok high ∧ t.get "reco_energy_center" = .ok center ∧
    RowsAreBins E low high center

/-- The rows of a returned cut table are the bins, its columns `cut` and `efficiency` the given ones. -/
def CutTableOfBins (E : List (FV ℝ)) (cut : List (FV ℝ)) (efficiency : Option (List (FV ℝ))) (t : Table (FV ℝ)) : Prop :=
  ∃ low high center, t.get "low" = .ok low ∧ t.get "high" = .ok high ∧ t.get "center" = .ok center ∧ RowsAreBins E low high center ∧
    t.get "cut" = .ok cut ∧ ∀ e, efficiency = some e → t.get "efficiency" = .ok e

/-! ## Lemmas -/

theorem rowsAreBins (E : List (FV ℝ)) : RowsAreBins E E.dropLast E.tail (binCenter E) := by
  refine ⟨⟨by simp, by simp, by simp [binCenter]⟩, ?_⟩
  intro i h
  refine ⟨?_, ?_, Sensitivity.center_getElem E i h⟩
  · rw [List.getElem?_dropLast]; simp; omega
  · rw [List.getElem?_tail]; simp [h]

theorem hist_shape {t : EventTable ℝ} {bins : List (FV ℝ)} {tab : HistTable ℝ} (h : createHistogramTable t bins = .ok tab) :
    tab.low = bins.dropLast ∧ tab.high = bins.tail ∧ tab.center = binCenter bins := by
  unfold createHistogramTable at h
  simp only [bind, Except.bind, pure, Except.pure] at h
  repeat' split at h
  all_goals first | (cases h; done) | (cases h; exact ⟨rfl, rfl, rfl⟩)

/-- the table begins with the three energy columns -/
def Starts (low high center : List (FV ℝ)) (t : Table (FV ℝ)) : Prop :=
  ∃ rest, t.cols = ("reco_energy_low", low) :: ("reco_energy_high", high) :: ("reco_energy_center", center) :: rest

theorem Starts.get {low high center : List (FV ℝ)} {t : Table (FV ℝ)} (h : Starts low high center t) :
    t.get "reco_energy_low" = .ok low ∧ t.get "reco_energy_high" = .ok high ∧ t.get "reco_energy_center" = .ok center := by
  obtain ⟨rest, h⟩ := h
  unfold Table.get
  rw [h]
  refine ⟨rfl, rfl, rfl⟩

theorem Starts.table {E : List (FV ℝ)} {t : Table (FV ℝ)}
    (h : Starts E.dropLast E.tail (binCenter E) t) : TableOfBins E t :=
  ⟨_, _, _, h.get.1, h.get.2.1, h.get.2.2, rowsAreBins E⟩

theorem Starts.set {low high center : List (FV ℝ)} {t : Table (FV ℝ)} (h : Starts low high center t) (name : String) (col : List (FV ℝ))
    (h1 : name ≠ "reco_energy_low") (h2 : name ≠ "reco_energy_high") (h3 : name ≠ "reco_energy_center") :
    Starts low high center (t.set name col) := by
  obtain ⟨rest, h⟩ := h
  unfold Table.set
  split
  · refine ⟨rest.map fun c => if c.1 = name then (name, col) else c, ?_⟩
    simp only [h, List.map_cons, if_neg h1.symm, if_neg h2.symm, if_neg h3.symm]
  · exact ⟨rest ++ [(name, col)], by rw [h]; rfl⟩

theorem Starts.foldl {low high center : List (FV ℝ)} (l : List (String × List (FV ℝ))) (hl : ∀ c ∈ l, copied c.1 = true) {t : Table (FV ℝ)}
    (h : Starts low high center t) : Starts low high center (l.foldl (fun t c => t.set c.1 c.2) t) := by
  induction l generalizing t with
  | nil => exact h
  | cons c l ih =>
    rw [List.foldl_cons]
    have hc := hl c (by simp)
    have hne : ∀ s : String, copied s = false → c.1 ≠ s := by
      intro s hs e; rw [e, hs] at hc; exact absurd hc (by simp)
    exact ih (fun c hc => hl c (by simp [hc])) (h.set _ _ (hne _ (by decide)) (hne _ (by decide)) (hne _ (by decide)))

/-- assigning its own entry `i` to a column -/
def keepCell (i : ℕ) (l : List (FV ℝ)) : List (FV ℝ) := match l[i]? with | some v => l.set i v | none => l

theorem Starts.setRow {low high center : List (FV ℝ)} {t o r : Table (FV ℝ)} {i : ℕ} (ht : Starts low high center t) (ho : Starts low high center o)
    (h : t.setRow i o = .ok r) : Starts low high center r := by
  have hself : ∀ l : List (FV ℝ), keepCell i l = l := by
    intro l
    unfold keepCell
    rcases hl : l[i]? with _ | v
    · rfl
    · obtain ⟨hlt, hv⟩ := List.getElem?_eq_some_iff.mp hl
      simp only []
      rw [← hv, List.set_getElem_self]
  obtain ⟨rt, ht⟩ := ht
  obtain ⟨ro, ho⟩ := ho
  unfold Table.setRow at h
  split at h
  · exact absurd h (by simp)
  · cases h
    simp only [ht, ho, List.zipWith_cons_cons]
    exact ⟨_, List.cons_eq_cons.mpr ⟨Prod.ext rfl (Eq.trans (by unfold keepCell; rcases low[i]? with _ | v <;> rfl) (hself low)), List.cons_eq_cons.mpr ⟨Prod.ext rfl (Eq.trans (by unfold keepCell; rcases high[i]? with _ | v <;> rfl) (hself high)),
      List.cons_eq_cons.mpr ⟨Prod.ext rfl (Eq.trans (by unfold keepCell; rcases center[i]? with _ | v <;> rfl) (hself center)), rfl⟩⟩⟩⟩

theorem histTable_starts {hw hp : Bool} {rows : List (Event ℝ)} {bins : List (FV ℝ)} {T : Table (FV ℝ)} (h : histTable hw hp rows bins = .ok T) :
    Starts bins.dropLast bins.tail (binCenter bins) T := by
  unfold histTable at h
  split at h
  · exact absurd h (by simp)
  · next t ht =>
    cases h
    obtain ⟨h1, h2, h3⟩ := hist_shape ht
    unfold toTable
    rw [h1, h2, h3]
    exact ⟨_, rfl⟩

theorem estimateBackground_starts {hw hp : Bool} {events : List BgEvent} {bins : List (FV ℝ)} {cuts : List (FV ℝ × FV ℝ)} {alpha lo hi : FV ℝ}
    {T : Table (FV ℝ)} (h : estimateBackground hw hp events bins cuts alpha lo hi = .ok T) :
    Starts bins.dropLast bins.tail (binCenter bins) T := by
  unfold estimateBackground at h
  simp only [bind, Except.bind, pure, Except.pure] at h
  split at h
  · exact absurd h (by simp)
  · next t ht =>
    cases h
    obtain ⟨rest, hr⟩ := histTable_starts ht
    have e1 : scaled "reco_energy_low" = false := by decide
    have e2 : scaled "reco_energy_high" = false := by decide
    have e3 : scaled "reco_energy_center" = false := by decide
    rw [hr]
    simp only [List.map_cons, e1, e2, e3, Bool.false_eq_true, if_false]
    exact ⟨_, rfl⟩

theorem calculateSensitivity_starts {brentq : RootFn} {sig : SigFn} {signal background T : Table (FV ℝ)} {alpha : FV ℝ} {th : Thresholds}
    {low high center : List (FV ℝ)} (hs : Starts low high center signal)
    (h : calculateSensitivity brentq sig signal background alpha th = .ok T) : Starts low high center T := by
  unfold calculateSensitivity at h
  simp only [bind, Except.bind, pure, Except.pure, hs.get.1, hs.get.2.1, hs.get.2.2] at h
  repeat' split at h
  all_goals first | (cases h; done) | skip
  cases h
  refine Starts.set (Starts.set (Starts.foldl _ ?_ ⟨_, rfl⟩) _ _ (by decide) (by decide) (by decide)) _ _ (by decide) (by decide) (by decide)
  intro c hc
  exact (List.mem_filter.mp hc).2

theorem sensitivityOf_starts {c : Ctx} {a b : List Bool} {t : CutTable ℝ (FV ℝ)} {T : Table (FV ℝ)} (h : sensitivityOf c a b t = .ok T) :
    Starts c.bins.dropLast c.bins.tail (binCenter c.bins) T := by
  unfold sensitivityOf at h
  repeat' split at h
  all_goals first | (cases h; done) | skip
  next hs _ _ _ => exact calculateSensitivity_starts (histTable_starts hs) h

theorem scanOne_starts {c : Ctx} {sI bI : List (ℤ × Bool)} {m : FV ℝ} {t g : CutTable ℝ (FV ℝ)} {T : Table (FV ℝ)}
    (h : scanOne c sI bI m t g = .ok T) : Starts c.bins.dropLast c.bins.tail (binCenter c.bins) T := by
  unfold scanOne at h
  repeat' split at h
  all_goals first | (cases h; done) | skip
  exact sensitivityOf_starts h

theorem scanGh_starts {c : Ctx} {t g : CutTable ℝ (FV ℝ)} {op : FV ℝ → FV ℝ → Bool} {m : List Bool} {T : Table (FV ℝ)}
    (h : scanGh c t op m g = .ok T) : Starts c.bins.dropLast c.bins.tail (binCenter c.bins) T := by
  unfold scanGh at h
  repeat' split at h
  all_goals first | (cases h; done) | skip
  exact sensitivityOf_starts h

theorem mapM_ok_all {α β : Type} {f : α → Except Err β} {P : β → Prop} (hf : ∀ a b, f a = .ok b → P b) {l : List α} {r : List β}
    (h : l.mapM f = .ok r) : ∀ b ∈ r, P b := by
  induction l generalizing r with
  | nil => cases h; simp
  | cons a l ih =>
    rw [List.mapM_cons] at h
    simp only [bind, Except.bind, pure, Except.pure] at h
    rcases ha : f a with e | b
    · rw [ha] at h; exact absurd h (by simp)
    · rw [ha] at h
      simp only [] at h
      rcases hl : l.mapM f with e | bs
      · rw [hl] at h; exact absurd h (by simp)
      · rw [hl] at h
        cases h
        intro x hx
        rcases List.mem_cons.mp hx with rfl | hx
        · exact hf _ _ ha
        · exact ih hl x hx

theorem foldlM_inv {α β : Type} {f : β → α → Except Err β} {P : β → Prop} (hf : ∀ b a b', P b → f b a = .ok b' → P b') {l : List α} {b r : β}
    (hb : P b) (h : l.foldlM f b = .ok r) : P r := by
  induction l generalizing b with
  | nil => cases h; exact hb
  | cons a l ih =>
    rw [List.foldlM_cons] at h
    simp only [bind, Except.bind] at h
    rcases ha : f b a with e | b'
    · rw [ha] at h; exact absurd h (by simp)
    · rw [ha] at h
      exact ih (hf _ _ _ hb ha) h

theorem itemAt_mem {α : Type} {l : List α} {i : ℕ} {a : α} (h : itemAt l i = .ok a) : a ∈ l := by
  unfold itemAt at h
  split at h
  · next v hv => cases h; exact List.mem_of_getElem? hv
  · exact absurd h (by simp)

theorem optimizeGhCut_starts {c : Ctx} {ghEff : List ℝ} {t : CutTable ℝ (FV ℝ)} {op : FV ℝ → FV ℝ → Bool} {out : BestGh}
    (h : optimizeGhCut c ghEff t op = .ok out) : Starts c.bins.dropLast c.bins.tail (binCenter c.bins) out.sens := by
  unfold optimizeGhCut at h
  simp only [bind, Except.bind, pure, Except.pure] at h
  repeat' split at h
  all_goals first | (cases h; done) | skip
  next tables htab _ first hfirst =>
    have hall := mapM_ok_all (P := Starts c.bins.dropLast c.bins.tail (binCenter c.bins)) (fun j T hT => scanGh_starts hT) htab
    refine foldlM_inv (P := fun b : BestGh => Starts c.bins.dropLast c.bins.tail (binCenter c.bins) b.sens) ?_ (hall _ (itemAt_mem hfirst)) h
    intro b i b' hb hs
    unfold bestGhStep at hs
    simp only [bind, Except.bind, pure, Except.pure] at hs
    repeat' split at hs
    all_goals first | (cases hs; done) | skip
    next t2 ht2 _ s2 hs2 _ _ _ _ _ _ =>
      cases hs
      exact hb.setRow (hall _ (itemAt_mem ht2)) hs2

theorem optimizeCuts_starts {c : Ctx} {g : Grid} {out : Best} (h : optimizeCuts c g = .ok out) :
    Starts c.bins.dropLast c.bins.tail (binCenter c.bins) out.sens := by
  unfold optimizeCuts at h
  simp only [bind, Except.bind, pure, Except.pure] at h
  repeat' split at h
  all_goals first | (cases h; done) | skip
  next grids hgr _ first hfirst =>
    have hgrid := mapM_ok_all (P := fun x : CutTable ℝ (List (FV ℝ)) × CutTable ℝ (List (FV ℝ)) × List Scan =>
      ∀ s ∈ x.2.2, Starts c.bins.dropLast c.bins.tail (binCenter c.bins) s.2) (by
        intro mm x hx
        unfold scanMult at hx
        repeat' split at hx
        all_goals first | (cases hx; done) | skip
        next hm =>
          cases hx
          refine mapM_ok_all (P := fun s : Scan => Starts c.bins.dropLast c.bins.tail (binCenter c.bins) s.2) ?_ hm
          intro gt s hs
          split at hs
          · exact absurd hs (by simp)
          · next hT => cases hs; exact scanOne_starts hT) hgr
    have hall : ∀ s ∈ grids.flatMap (fun x => x.2.2), Starts c.bins.dropLast c.bins.tail (binCenter c.bins) s.2 := by
      intro s hs
      obtain ⟨x, hx, hsx⟩ := List.mem_flatMap.mp hs
      exact hgrid x hx s hsx
    refine foldlM_inv (P := fun b : Best => Starts c.bins.dropLast c.bins.tail (binCenter c.bins) b.sens) ?_ (hall _ (itemAt_mem hfirst)) h
    intro b i b' hb hs
    unfold bestStep at hs
    simp only [bind, Except.bind, pure, Except.pure] at hs
    repeat' split at hs
    all_goals first | (cases hs; done) | skip
    next t2 ht2 _ s2 hs2 _ _ _ _ _ _ _ _ _ _ _ _ _ _ _ =>
      cases hs
      exact hb.setRow (hall _ (itemAt_mem ht2)) hs2

theorem bias_shape {bf rf : List (FV ℝ) → Except Err (FV ℝ)} {t : EnergyType} {events : List Bench.Event} {bins : List (FV ℝ)} {tab : BiasTable}
    (h : energyBiasResolution bf rf t events bins = .ok tab) : tab.low = bins.dropLast ∧ tab.high = bins.tail ∧ tab.center = binCenter bins := by
  unfold energyBiasResolution at h
  simp only [] at h
  split at h
  · cases h; exact ⟨rfl, rfl, rfl⟩
  · split at h
    · exact absurd h (by simp)
    split at h
    · exact absurd h (by simp)
    · refine foldlM_inv (P := fun b : BiasTable => b.low = bins.dropLast ∧ b.high = bins.tail ∧ b.center = binCenter bins) ?_ ?_ h
      · intro b k b' hb hs
        unfold biasStep at hs
        simp only [] at hs
        repeat' split at hs
        all_goals first | (cases hs; done) | (cases hs; exact hb)
      · exact ⟨rfl, rfl, rfl⟩

theorem ang_shape {t : EnergyType} {qs : List ℝ} {events : List Bench.Event} {bins : List (FV ℝ)} {tab : AngTable}
    (h : angularResolution t qs events bins = .ok tab) : tab.low = bins.dropLast ∧ tab.high = bins.tail ∧ tab.center = binCenter bins := by
  unfold angularResolution at h
  split at h
  · exact absurd h (by simp)
  · simp only [] at h
    split at h
    · cases h; exact ⟨rfl, rfl, rfl⟩
    split at h
    · exact absurd h (by simp)
    · refine foldlM_inv (P := fun b : AngTable => b.low = bins.dropLast ∧ b.high = bins.tail ∧ b.center = binCenter bins) ?_ ?_ h
      · intro b k b' hb hs
        unfold angStep at hs
        simp only [] at hs
        split at hs
        · exact absurd hs (by simp)
        · cases hs; exact hb
      · exact ⟨rfl, rfl, rfl⟩

/-! ## C131 -/

/-- **C131** (`create_histogram_table`) Whenever it returns, the rows of the table are the bins. -/
theorem C131_histogram (t : EventTable ℝ) (E : List (FV ℝ)) (tab : HistTable ℝ) (h : createHistogramTable t E = .ok tab) :
    RowsAreBins E tab.low tab.high tab.center := by
  obtain ⟨h1, h2, h3⟩ := hist_shape h
  rw [h1, h2, h3]; exact rowsAreBins E

/-- **C131** (`calculate_percentile_cut`, one percentile, with or without smoothing) Whenever it returns, the rows of the cut table are the bins. -/
theorem C131_cut (evs : List (FV ℝ × FV ℝ)) (E : List (FV ℝ)) (fill : FV ℝ) (p : ℝ) (lo hi : Option (FV ℝ)) (smoothing : Option ℝ) (minEvents : ℤ)
    (tab : CutTable ℝ (FV ℝ)) (h : percentileCutSmoothed evs E fill p lo hi smoothing minEvents = .ok tab) :
    RowsAreBins E tab.low tab.high tab.center := by
  unfold percentileCutSmoothed at h
  split at h
  · exact absurd h (by simp)
  · next t ht =>
    obtain ⟨h1, h2, h3, -⟩ := CutOpt.cutTable_shape ht
    have : RowsAreBins E t.low t.high t.center := by rw [h1, h2, h3]; exact rowsAreBins E
    cases h
    cases smoothing <;> exact this

/-- **C131** (`calculate_percentile_cut`, list of percentiles, with or without smoothing) Whenever it returns, the rows of the cut table are the bins. -/
theorem C131_cuts (evs : List (FV ℝ × FV ℝ)) (E : List (FV ℝ)) (fill : FV ℝ) (ps : List ℝ) (lo hi : Option (FV ℝ)) (smoothing : Option ℝ) (minEvents : ℤ)
    (tab : CutTable ℝ (List (FV ℝ))) (h : percentileCutsSmoothed evs E fill ps lo hi smoothing minEvents = .ok tab) :
    RowsAreBins E tab.low tab.high tab.center := by
  unfold percentileCutsSmoothed at h
  split at h
  · exact absurd h (by simp)
  · next t ht =>
    obtain ⟨h1, h2, h3, -⟩ := CutOpt.cutTable_shape ht
    have : RowsAreBins E t.low t.high t.center := by rw [h1, h2, h3]; exact rowsAreBins E
    cases h
    cases smoothing <;> exact this

/-- **C131** (`estimate_background`) Whenever it returns, the energy columns of the table are the bins. -/
theorem C131_background (hw hp : Bool) (events : List BgEvent) (E : List (FV ℝ)) (cuts : List (FV ℝ × FV ℝ)) (alpha lo hi : FV ℝ) (out : Table (FV ℝ))
    (h : estimateBackground hw hp events E cuts alpha lo hi = .ok out) : TableOfBins E out :=
  (estimateBackground_starts h).table

/-- **C131** (`calculate_sensitivity`) Whenever it returns for a signal histogram of `create_histogram_table`, the energy columns are the bins. -/
theorem C131_sensitivity (brentq : RootFn) (sig : SigFn) (hw hp : Bool) (rows : List (Event ℝ)) (E : List (FV ℝ)) (signal background out : Table (FV ℝ))
    (alpha : FV ℝ) (th : Thresholds) (hs : histTable hw hp rows E = .ok signal)
    (h : calculateSensitivity brentq sig signal background alpha th = .ok out) : TableOfBins E signal ∧ TableOfBins E out :=
  ⟨(histTable_starts hs).table, (calculateSensitivity_starts (histTable_starts hs) h).table⟩

/-- **C131** (`optimize_cuts`, `optimize_gh_cut`) Whenever they return, the energy columns of the sensitivity table are the bins, although its rows
come from the tables of different cuts and are assigned by position. -/
theorem C131_optimised (c : Ctx) (E : List (FV ℝ)) (hbins : c.bins = E) :
    (∀ g out, optimizeCuts c g = .ok out → TableOfBins E out.sens) ∧
    (∀ eff t op out, optimizeGhCut c eff t op = .ok out → TableOfBins E out.sens) := by
  refine ⟨fun g out h => ?_, fun eff t op out h => ?_⟩
  · have := optimizeCuts_starts h
    rw [hbins] at this
    exact this.table
  · have := optimizeGhCut_starts h
    rw [hbins] at this
    exact this.table

theorem returnedCuts_table (E : List (FV ℝ)) (cut : List (FV ℝ)) (efficiency : Option (List (FV ℝ))) :
    CutTableOfBins E cut efficiency (returnedCuts E cut efficiency) := by
  refine ⟨_, _, _, rfl, rfl, rfl, rowsAreBins E, rfl, ?_⟩
  rintro e rfl
  rfl

/-- **C131** (`optimize_cuts`, `optimize_gh_cut`) The returned cut tables have one row per bin, with the cuts and efficiencies of the bins (those of
C23, C24, C110). -/
theorem C131_optimised_cut_tables (c : Ctx) (E : List (FV ℝ)) (hbins : c.bins = E) :
    (∀ g out, optimizeCuts c g = .ok out → ∃ mult theta gh, optimizeCutsTables c g = .ok (out.sens, mult, theta, gh) ∧
      CutTableOfBins E out.mult none mult ∧ CutTableOfBins E out.theta (some out.thetaEff) theta ∧ CutTableOfBins E out.gh (some out.ghEff) gh) ∧
    (∀ eff t op out, optimizeGhCut c eff t op = .ok out → ∃ gh, optimizeGhCutTables c eff t op = .ok (out.sens, gh) ∧
      CutTableOfBins E out.gh (some out.ghEff) gh) := by
  refine ⟨fun g out h => ?_, fun eff t op out h => ?_⟩
  · refine ⟨returnedCuts c.bins out.mult none, returnedCuts c.bins out.theta (some out.thetaEff), returnedCuts c.bins out.gh (some out.ghEff), ?_, ?_⟩
    · unfold optimizeCutsTables; rw [h]
    · rw [hbins]; exact ⟨returnedCuts_table _ _ _, returnedCuts_table _ _ _, returnedCuts_table _ _ _⟩
  · refine ⟨returnedCuts c.bins out.gh (some out.ghEff), ?_, ?_⟩
    · unfold optimizeGhCutTables; rw [h]
    · rw [hbins]; exact returnedCuts_table _ _ _

/-- **C131** (`energy_bias_resolution`) Whenever it returns, the rows of the table are the bins. -/
theorem C131_bias (bf rf : List (FV ℝ) → Except Err (FV ℝ)) (t : EnergyType) (events : List Bench.Event) (E : List (FV ℝ)) (tab : BiasTable)
    (h : energyBiasResolution bf rf t events E = .ok tab) : RowsAreBins E tab.low tab.high tab.center := by
  obtain ⟨h1, h2, h3⟩ := bias_shape h
  rw [h1, h2, h3]; exact rowsAreBins E

/-- **C131** (`angular_resolution`) Whenever it returns, the rows of the table are the bins. -/
theorem C131_angular (t : EnergyType) (qs : List ℝ) (events : List Bench.Event) (E : List (FV ℝ)) (tab : AngTable)
    (h : angularResolution t qs events E = .ok tab) : RowsAreBins E tab.low tab.high tab.center := by
  obtain ⟨h1, h2, h3⟩ := ang_shape h
  rw [h1, h2, h3]; exact rowsAreBins E

/-- **C131** (consequence) For strictly increasing edges, the last of which may be +inf, the rows tile the axis: a value in `[E₀, E_n)` satisfies
`low <= x < high` in exactly one row, any other value (also NaN) in none; and every centre lies strictly inside its row, in the middle if the row is
finite, at +inf if it is an overflow bin. -/
theorem C131_tiling (E : List (FV ℝ)) (hE : Np.Increasing1 E) (hl : 2 ≤ E.length) (low high center : List (FV ℝ)) (h : RowsAreBins E low high center) :
    (∀ x : FV ℝ, (FV.le E[0] x = true ∧ FV.lt x E[E.length - 1] = true →
        ∃! i : ℕ, ∃ a b, low[i]? = some a ∧ high[i]? = some b ∧ FV.le a x = true ∧ FV.lt x b = true) ∧
      (¬ (FV.le E[0] x = true ∧ FV.lt x E[E.length - 1] = true) →
        ∀ (i : ℕ) (a b : FV ℝ), low[i]? = some a → high[i]? = some b → ¬ (FV.le a x = true ∧ FV.lt x b = true))) ∧
    ∀ (i : ℕ) (a b c : FV ℝ), low[i]? = some a → high[i]? = some b → center[i]? = some c →
      (∃ u v w : ℝ, a = .fin u ∧ b = .fin v ∧ c = .fin w ∧ u < w ∧ w < v ∧ w - u = v - w) ∨ (∃ u, a = .fin u) ∧ b = .pinf ∧ c = .pinf := by
  have hmono : ∀ i j (hi : i < E.length) (hj : j < E.length), i ≤ j → FV.le E[i] E[j] = true := by
    intro i j hi hj hij
    rcases Nat.lt_or_ge i j with h' | h'
    · exact FV.le_of_lt' ((List.pairwise_iff_getElem.mp hE.2) i j hi hj h')
    · have : i = j := by omega
      subst this; exact FV.le_refl' (hE.1 _ (List.getElem_mem _)).1
  have hrow : ∀ (i : ℕ) (a b : FV ℝ), low[i]? = some a → high[i]? = some b → ∃ h : i + 1 < E.length, a = E[i] ∧ b = E[i + 1] := by
    intro i a b ha hb
    have hi := (List.getElem?_eq_some_iff.mp ha).1
    have hlen := h.length.1
    have h' : i + 1 < E.length := by omega
    obtain ⟨r1, r2, -⟩ := h.row i h'
    rw [r1] at ha; rw [r2] at hb
    exact ⟨h', (Option.some.inj ha).symm, (Option.some.inj hb).symm⟩
  refine ⟨fun x => ⟨?_, ?_⟩, ?_⟩
  · rintro ⟨hx0, hx1⟩
    have hex : ∃ i, ∃ hi : i < E.length, FV.lt x E[i] = true := ⟨E.length - 1, by omega, hx1⟩
    classical
    obtain ⟨k, ⟨hk, hxk⟩, hmin⟩ : ∃ k, (∃ hi : k < E.length, FV.lt x E[k] = true) ∧ ∀ m < k, ¬ ∃ hi : m < E.length, FV.lt x E[m] = true :=
      ⟨Nat.find hex, Nat.find_spec hex, fun m hm => Nat.find_min hex hm⟩
    have hk0 : k ≠ 0 := by
      intro h0
      have : FV.lt x E[0] = true := by simpa only [h0] using hxk
      rw [FV.not_lt_of_le hx0] at this
      exact absurd this (by simp)
    obtain ⟨i, hi⟩ := Nat.exists_eq_succ_of_ne_zero hk0
    have hi1 : i + 1 < E.length := by omega
    have hxi : FV.le E[i] x = true := by
      rcases FV.le_or_lt' (hE.1 E[i] (List.getElem_mem _)).1 (FV.ne_nan_of_le hx0).2 with hc | hc
      · exact hc
      · exact absurd ⟨by omega, hc⟩ (hmin i (by omega))
    have hxk' : FV.lt x E[i + 1] = true := by simpa only [hi] using hxk
    obtain ⟨r1, r2, -⟩ := h.row i hi1
    refine ⟨i, ⟨_, _, r1, r2, hxi, hxk'⟩, ?_⟩
    rintro j ⟨a, b, ha, hb, hax, hxb⟩
    obtain ⟨hj, rfl, rfl⟩ := hrow j a b ha hb
    rcases Nat.lt_trichotomy j i with hji | hji | hji
    · have := FV.lt_of_lt_of_le' hxb (FV.le_trans' (hmono (j + 1) i (by omega) (by omega) (by omega)) hxi)
      rw [FV.lt_irrefl'] at this; exact absurd this (by simp)
    · exact hji
    · have := FV.lt_of_lt_of_le' hxk' (FV.le_trans' (hmono (i + 1) j (by omega) (by omega) (by omega)) hax)
      rw [FV.lt_irrefl'] at this; exact absurd this (by simp)
  · intro hx i a b ha hb hab
    obtain ⟨hi, rfl, rfl⟩ := hrow i a b ha hb
    exact hx ⟨FV.le_trans' (hmono 0 i (by omega) (by omega) (by omega)) hab.1,
      FV.lt_of_lt_of_le' hab.2 (hmono (i + 1) (E.length - 1) (by omega) (by omega) (by omega))⟩
  · intro i a b c ha hb hc
    obtain ⟨hi, rfl, rfl⟩ := hrow i a b ha hb
    obtain ⟨-, -, r3⟩ := h.row i hi
    rw [r3] at hc
    obtain rfl := Option.some.inj hc
    have hlt : FV.lt E[i] E[i + 1] = true := (List.pairwise_iff_getElem.mp hE.2) i (i + 1) (by omega) hi (by omega)
    have n0 := hE.1 E[i] (List.getElem_mem _)
    generalize E[i] = u at hlt n0 ⊢
    generalize E[i + 1] = v at hlt ⊢
    cases u <;> cases v <;> simp_all [FV.lt, middle]
    refine ⟨by linarith, by linarith, by ring⟩

/-- The hypotheses are met: two bins and an overflow bin, one event. -/
example : ∃ tab, createHistogramTable (⟨false, false, [⟨.fin 1, 1, "gamma"⟩]⟩ : EventTable ℝ) [.fin 0, .fin 2, .fin 5, .pinf] = .ok tab ∧
    RowsAreBins [.fin 0, .fin 2, .fin 5, .pinf] tab.low tab.high tab.center ∧ tab.center = [.fin 1, .fin (7 / 2), .pinf] := by
  have hE : Np.Increasing1 ([.fin 0, .fin 2, .fin 5, .pinf] : List (FV ℝ)) := increasing1_overflow (E := [0, 2, 5]) (by simp; norm_num)
  obtain ⟨tab, h1, -, -, h3, -⟩ := createHistogramTable_cols hE.increasing ⟨false, false, [⟨.fin 1, 1, "gamma"⟩]⟩ (by simp)
  refine ⟨tab, h1, C131_histogram _ _ tab h1, ?_⟩
  rw [h3]
  simp only [binCenter, List.dropLast, List.tail, List.zipWith, half_sum, middle]
  norm_num

end Pyirf.Pipeline
