import Verif.Sensitivity.RelProps
import Verif.Utils.Props
import Verif.Binning.HistProps

/-!
# Property C21: calculate_sensitivity
-/
set_option linter.unusedSectionVars false
set_option linter.unusedSimpArgs false

namespace Pyirf.Sensitivity
open Pyirf Pyirf.Stats Pyirf.Utils

/-! ## Specification -/

/-- `t` is a histogram table in reconstructed energy with these columns, all of the same length. -/
structure IsHist (t : Table (FV ℝ)) (lo ce hi cn cw : List (FV ℝ)) : Prop where
  /-- lower edges -/
  low : t.get "reco_energy_low" = .ok lo
  /-- centers -/
  center : t.get "reco_energy_center" = .ok ce
  /-- upper edges -/
  high : t.get "reco_energy_high" = .ok hi
  /-- counts -/
  n : t.get "n" = .ok cn
  /-- weighted counts -/
  nw : t.get "n_weighted" = .ok cw
  /-- column names are unique -/
  nodup : t.names.Nodup
  /-- equal lengths -/
  len : lo.length = cw.length ∧ ce.length = cw.length ∧ hi.length = cw.length ∧ cn.length = cw.length

/-- The names `calculate_sensitivity` uses itself and that a background particle type must not collide with. -/
def reserved : List String := ["n_signal", "n_signal_weighted", "n_background", "n_background_weighted"]

/-! ## Lemmas -/

theorem get_foldl_set_not_mem (l : List (String × List (FV ℝ))) (s : Table (FV ℝ)) (name : String)
    (h : name ∉ l.map Prod.fst) : (l.foldl (fun t c => t.set c.1 c.2) s).get name = s.get name := by
  induction l generalizing s with
  | nil => rfl
  | cons c l ih =>
    simp only [List.map_cons, List.mem_cons, not_or] at h
    rw [List.foldl_cons, ih _ h.2, Table.get_set_ne _ _ _ _ h.1]

theorem get_foldl_set_mem (l : List (String × List (FV ℝ))) (s : Table (FV ℝ)) (name : String) (col : List (FV ℝ))
    (hnd : (l.map Prod.fst).Nodup) (h : (name, col) ∈ l) :
    (l.foldl (fun t c => t.set c.1 c.2) s).get name = .ok col := by
  induction l generalizing s with
  | nil => simp at h
  | cons c l ih =>
    rw [List.foldl_cons]
    simp only [List.map_cons, List.nodup_cons] at hnd
    rcases List.mem_cons.mp h with rfl | h
    · rw [get_foldl_set_not_mem _ _ _ hnd.1, Table.get_set_self]
    · exact ih _ hnd.2 h

theorem get_mem {t : Table (FV ℝ)} {name : String} {col : List (FV ℝ)} (h : t.get name = .ok col) :
    (name, col) ∈ t.cols := by
  unfold Table.get at h
  split at h
  · rename_i c hc
    have h1 := List.mem_of_find?_eq_some hc
    have h2 := List.find?_some hc
    simp only [decide_eq_true_eq] at h2
    have h3 := Except.ok.inj h
    rw [← h2, ← h3]
    exact h1
  · exact absurd h (by simp)

theorem relativeSensitivity_ok {brentq : RootFn} {sig : SigFn} {nOn nOff : List (FV ℝ)} {alpha : FV ℝ} {th : Thresholds}
    {rel : List (FV ℝ)} (hl : nOn.length = nOff.length)
    (h : relativeSensitivity brentq sig nOn nOff alpha th = .ok rel) :
    nOn ≠ [] ∧ rel.length = nOff.length ∧ ∀ (i : ℕ) (h1 : i < nOn.length) (h2 : i < nOff.length) (h3 : i < rel.length),
      relativeSensitivity1 brentq sig nOn[i] nOff[i] alpha th = .ok rel[i] := by
  unfold relativeSensitivity at h
  split at h
  · exact absurd h (by simp)
  · rename_i hne
    refine ⟨by intro hh; rw [hh] at hne; exact hne rfl, ?_⟩
    clear hne
    induction nOn generalizing nOff rel with
    | nil =>
      cases nOff with
      | nil => simp [List.mapM_nil, pure, Except.pure] at h; subst h; simp
      | cons => simp at hl
    | cons x xs ih =>
      cases nOff with
      | nil => simp at hl
      | cons y ys =>
        rw [List.zip_cons_cons, List.mapM_cons] at h
        cases hx : relativeSensitivity1 brentq sig x y alpha th with
        | error e => simp [hx, bind, Except.bind] at h
        | ok r =>
          simp only [hx, bind, Except.bind] at h
          cases hm : (xs.zip ys).mapM (fun e => relativeSensitivity1 brentq sig e.1 e.2 alpha th) with
          | error e => rw [hm] at h; exact absurd h (by simp)
          | ok rs =>
            rw [hm] at h
            simp only [pure, Except.pure] at h
            obtain rfl := Except.ok.inj h
            have := ih (by simpa using hl) hm
            refine ⟨by simp [this.1], ?_⟩
            intro i h1 h2 h3
            cases i with
            | zero => exact hx
            | succ i => exact this.2 i (by simpa using h1) (by simpa using h2) (by simpa using h3)

theorem relativeSensitivity_of {brentq : RootFn} {sig : SigFn} {nOn nOff : List (FV ℝ)} {alpha : FV ℝ} {th : Thresholds}
    (hne : nOn ≠ []) (hall : ∀ e ∈ nOn.zip nOff, ∃ r, relativeSensitivity1 brentq sig e.1 e.2 alpha th = .ok r) :
    ∃ rel, relativeSensitivity brentq sig nOn nOff alpha th = .ok rel := by
  unfold relativeSensitivity
  rw [if_neg (by simpa using hne)]
  generalize nOn.zip nOff = l at hall
  induction l with
  | nil => exact ⟨[], rfl⟩
  | cons e l ih =>
    obtain ⟨r, hr⟩ := hall e (by simp)
    obtain ⟨rs, hrs⟩ := ih (fun e he => hall e (by simp [he]))
    exact ⟨r :: rs, by rw [List.mapM_cons, hr, hrs]; rfl⟩

/-- the table written before `significance` and `relative_sensitivity` -/
noncomputable def baseTable (background : Table (FV ℝ)) (low high center sN sW bN bW rel : List (FV ℝ)) :
    Table (FV ℝ) :=
  (background.cols.filter (fun c => copied c.1)).foldl (fun t c => t.set c.1 c.2)
    ⟨[("reco_energy_low", low), ("reco_energy_high", high), ("reco_energy_center", center),
      ("n_signal", colMul sN rel), ("n_signal_weighted", colMul sW rel),
      ("n_background", bN), ("n_background_weighted", bW)]⟩

section main
variable {brentq : RootFn} {sig : SigFn} {signal background : Table (FV ℝ)} {alpha : FV ℝ} {th : Thresholds}
  {low center high sN sW bN bW rel : List (FV ℝ)}

theorem get_base_copied (hb : background.names.Nodup) {name : String} {col : List (FV ℝ)} (hc : copied name = true)
    (hg : background.get name = .ok col) :
    (baseTable background low high center sN sW bN bW rel).get name = .ok col := by
  unfold baseTable
  apply get_foldl_set_mem
  · exact List.Nodup.sublist ((List.filter_sublist (l := background.cols)).map Prod.fst) hb
  · rw [List.mem_filter]
    exact ⟨get_mem hg, hc⟩

theorem get_base_other {name : String} (hc : copied name = false ∨ name ∉ background.names) :
    (baseTable background low high center sN sW bN bW rel).get name =
      Table.get ⟨[("reco_energy_low", low), ("reco_energy_high", high), ("reco_energy_center", center),
      ("n_signal", colMul sN rel), ("n_signal_weighted", colMul sW rel),
      ("n_background", bN), ("n_background_weighted", bW)]⟩ name := by
  unfold baseTable
  apply get_foldl_set_not_mem
  intro hm
  obtain ⟨c, hc', rfl⟩ := List.mem_map.mp hm
  rw [List.mem_filter] at hc'
  rcases hc with h | h
  · rw [h] at hc'; exact absurd hc'.2 (by simp)
  · exact h (List.mem_map_of_mem hc'.1)

theorem calculateSensitivity_unfold (hs : IsHist signal low center high sN sW)
    (hb : IsHist background low center high bN bW) (hnan : ∀ x ∈ low ++ center ++ high, x ≠ .nan)
    (hres : ∀ c ∈ reserved, c ∉ background.names)
    (hrel : relativeSensitivity brentq sig (colAxpy sW alpha bW) bW alpha th = .ok rel) :
    calculateSensitivity brentq sig signal background alpha th =
      .ok (((baseTable background low high center sN sW bN bW rel).set "significance"
        (List.zipWith (fun x y => sig (x + alpha * y) y alpha) (colMul sW rel) bW)).set "relative_sensitivity" rel) := by
  have hck : checkHistograms signal background = .ok () :=
    (C72_check_histograms signal background "reco_energy" low center high low center high hs.low hs.center hs.high
      hb.low hb.center hb.high rfl rfl rfl).1 ⟨rfl, rfl, rfl, hnan⟩
  have g1 : (baseTable background low high center sN sW bN bW rel).get "n_signal_weighted" = .ok (colMul sW rel) := by
    rw [get_base_other (Or.inr (hres _ (by simp [reserved])))]; rfl
  have g2 : (baseTable background low high center sN sW bN bW rel).get "n_background_weighted" = .ok bW := by
    rw [get_base_other (Or.inr (hres _ (by simp [reserved])))]; rfl
  unfold calculateSensitivity
  rw [hck, hs.nw, hb.nw, hs.low, hs.center, hs.high, hs.n, hb.n]
  simp only [bind, Except.bind, hrel]
  unfold baseTable at g1 g2
  rw [g1, g2]
  rfl
end main

/-! ## C21 -/

/-- **C21** The output table, for every significance function and root finder. For two non-empty histograms with the same NaN-free
binning, when no background particle type is called `signal` or `background`, and the relative sensitivities can be computed:
the binning is kept; `relative_sensitivity[i]` is that of `(n_sig_w + alpha * n_bg_w, n_bg_w)` of bin `i`; `n_signal` and
`n_signal_weighted` are the signal columns times it; the background columns are copied (also every `n_<particle>` and
`n_<particle>_weighted` column); `significance` is the significance function at the scaled signal. -/
theorem C21_table (brentq : RootFn) (sig : SigFn) (signal background : Table (FV ℝ)) (alpha : FV ℝ) (th : Thresholds)
    (low center high sN sW bN bW : List (FV ℝ)) (hs : IsHist signal low center high sN sW)
    (hb : IsHist background low center high bN bW) (hnan : ∀ x ∈ low ++ center ++ high, x ≠ .nan)
    (hne : low ≠ []) (hres : ∀ c ∈ reserved, c ∉ background.names)
    (hok : ∀ (i : ℕ) (h1 : i < sW.length) (h2 : i < bW.length),
      ∃ r, relativeSensitivity1 brentq sig (sW[i] + alpha * bW[i]) bW[i] alpha th = .ok r) :
    ∃ out rel sgn, calculateSensitivity brentq sig signal background alpha th = .ok out ∧
      out.get "reco_energy_low" = .ok low ∧ out.get "reco_energy_center" = .ok center ∧
      out.get "reco_energy_high" = .ok high ∧
      out.get "n_background" = .ok bN ∧ out.get "n_background_weighted" = .ok bW ∧
      (∀ p col, background.get ("n_" ++ p) = .ok col → p ≠ "weighted" → out.get ("n_" ++ p) = .ok col) ∧
      out.get "relative_sensitivity" = .ok rel ∧ rel.length = low.length ∧
      (∀ (i : ℕ) (h1 : i < sW.length) (h2 : i < bW.length) (h3 : i < rel.length),
        relativeSensitivity1 brentq sig (sW[i] + alpha * bW[i]) bW[i] alpha th = .ok rel[i]) ∧
      out.get "n_signal" = .ok (List.zipWith (· * ·) sN rel) ∧
      out.get "n_signal_weighted" = .ok (List.zipWith (· * ·) sW rel) ∧
      out.get "significance" = .ok sgn ∧ sgn.length = low.length ∧
      (∀ (i : ℕ) (h1 : i < sW.length) (h2 : i < bW.length) (h3 : i < rel.length) (h4 : i < sgn.length),
        sgn[i] = sig (sW[i] * rel[i] + alpha * bW[i]) bW[i] alpha) := by
  have hlen : sW.length = bW.length := by rw [← hs.len.1, ← hb.len.1]
  have hne' : colAxpy sW alpha bW ≠ [] := by
    intro h
    have := congrArg List.length h
    have hp : 0 < low.length := List.length_pos_iff.mpr hne
    have h1 := hs.len.1
    have h2 := hb.len.1
    simp only [colAxpy, List.length_zipWith, List.length_nil] at this
    omega
  obtain ⟨rel, hrel⟩ := relativeSensitivity_of (brentq := brentq) (sig := sig) (nOff := bW) (alpha := alpha) (th := th) hne' (by
    intro e he
    obtain ⟨i, hi, rfl⟩ := List.getElem_of_mem he
    simp only [List.length_zip, colAxpy, List.length_zipWith] at hi
    rw [List.getElem_zip]
    simp only [colAxpy, List.getElem_zipWith]
    exact hok i (by omega) (by omega))
  have hrok := relativeSensitivity_ok (by simp [colAxpy, hlen]) hrel
  have hrl : rel.length = low.length := by rw [hrok.2.1, hb.len.1]
  have hun := calculateSensitivity_unfold hs hb hnan hres hrel
  refine ⟨_, rel, List.zipWith (fun x y => sig (x + alpha * y) y alpha) (colMul sW rel) bW, hun, ?_, ?_, ?_, ?_, ?_, ?_, ?_, hrl,
    ?_, ?_, ?_, ?_, ?_, ?_⟩
  all_goals try (rw [Table.get_set_ne _ _ _ _ (by decide), Table.get_set_ne _ _ _ _ (by decide)])
  · rw [get_base_other (Or.inl (by decide))]; rfl
  · rw [get_base_other (Or.inl (by decide))]; rfl
  · rw [get_base_other (Or.inl (by decide))]; rfl
  · rw [get_base_other (Or.inr (hres _ (by simp [reserved])))]; rfl
  · rw [get_base_other (Or.inr (hres _ (by simp [reserved])))]; rfl
  · intro p col hp hpw
    have hpre : "n_".toList.isPrefixOf ("n_" ++ p).toList = true := by
      rw [List.isPrefixOf_iff_prefix, String.toList_append]
      exact List.prefix_append _ _
    have hne1 : ("n_" ++ p) ≠ "n_weighted" := by
      intro h
      exact hpw (Binning.prefix_inj.mp (show "n_" ++ p = "n_" ++ "weighted" from h))
    have hx : ∀ s : String, "n_".toList.isPrefixOf s.toList = false → "n_" ++ p ≠ s := by
      intro s hs' h; rw [← h, hpre] at hs'; exact absurd hs' (by simp)
    rw [Table.get_set_ne _ _ _ _ (hx _ (by decide)), Table.get_set_ne _ _ _ _ (hx _ (by decide))]
    apply get_base_copied hb.nodup _ hp
    unfold copied
    rw [hpre]
    simpa using hne1
  · rw [Table.get_set_self]
  · intro i h1 h2 h3
    have := hrok.2.2 i (by simp [colAxpy, hlen]; omega) h2 h3
    simpa only [colAxpy, List.getElem_zipWith] using this
  · rw [get_base_other (Or.inr (hres _ (by simp [reserved])))]; rfl
  · rw [get_base_other (Or.inr (hres _ (by simp [reserved])))]; rfl
  · rw [Table.get_set_ne _ _ _ _ (by decide), Table.get_set_self]
  · simp only [colMul, List.length_zipWith, hrl]
    have h1 := hs.len.1
    have h2 := hb.len.1
    omega
  · intro i h1 h2 h3 h4
    simp only [colMul, List.getElem_zipWith]

/-- **C21** Tables whose binnings differ in some bin are rejected with ValueError, whatever they contain. -/
theorem C21_binning_mismatch (brentq : RootFn) (sig : SigFn) (signal background : Table (FV ℝ)) (alpha : FV ℝ) (th : Thresholds)
    (low center high sN sW low' center' high' bN bW : List (FV ℝ)) (hs : IsHist signal low center high sN sW)
    (hb : IsHist background low' center' high' bN bW) (hlen : low.length = low'.length)
    (hdiff : ¬ (low = low' ∧ center = center' ∧ high = high')) :
    calculateSensitivity brentq sig signal background alpha th = .error .valueError := by
  have hck : checkHistograms signal background = .error .valueError := by
    refine (C72_check_histograms signal background "reco_energy" low center high low' center' high' hs.low hs.center hs.high
      hb.low hb.center hb.high hlen ?_ ?_).2 ?_
    · have := hs.len; have := hb.len; omega
    · have := hs.len; have := hb.len; omega
    · rintro ⟨a, b, c, -⟩; exact hdiff ⟨a, b, c⟩
  unfold calculateSensitivity
  rw [hck]
  rfl

/-- **C21** So are tables with different numbers of bins (lower edges distinct in each, as for every proper binning). -/
theorem C21_different_length (brentq : RootFn) (sig : SigFn) (signal background : Table (FV ℝ)) (alpha : FV ℝ) (th : Thresholds)
    (low center high sN sW low' center' high' bN bW : List (FV ℝ)) (hs : IsHist signal low center high sN sW)
    (hb : IsHist background low' center' high' bN bW) (n1 : low.Nodup) (n2 : low'.Nodup) (hlen : low.length ≠ low'.length) :
    calculateSensitivity brentq sig signal background alpha th = .error .valueError := by
  by_cases h0 : low = [] ∨ low' = []
  · have hz : colAxpy sW alpha bW = [] := by
      have h1 := hs.len.1
      have h2 := hb.len.1
      have h3 := hs.len
      have h4 := hb.len
      unfold colAxpy
      rcases h0 with rfl | rfl
      · have : sW = [] := List.length_eq_zero_iff.mp (by simp at h3; omega)
        rw [this]; rfl
      · have : bW = [] := List.length_eq_zero_iff.mp (by simp at h4; omega)
        rw [this]; simp
    have hck : checkHistograms signal background = .error .valueError ∨ checkHistograms signal background = .ok () := by
      unfold checkHistograms checkColumn
      have e1 : signal.get ("reco_energy" ++ "_low") = .ok low := hs.low
      have e2 : signal.get ("reco_energy" ++ "_center") = .ok center := hs.center
      have e3 : signal.get ("reco_energy" ++ "_high") = .ok high := hs.high
      have f1 : background.get ("reco_energy" ++ "_low") = .ok low' := hb.low
      have f2 : background.get ("reco_energy" ++ "_center") = .ok center' := hb.center
      have f3 : background.get ("reco_energy" ++ "_high") = .ok high' := hb.high
      rw [e1, e2, e3, f1, f2, f3]
      simp only
      cases allEqual low low' <;> cases allEqual center center' <;> cases allEqual high high' <;>
        first | (left; rfl) | (right; rfl)
    unfold calculateSensitivity
    rcases hck with hck | hck
    · rw [hck]; rfl
    · rw [hck, hs.nw, hb.nw]
      show ((relativeSensitivity brentq sig (colAxpy sW alpha bW) bW alpha th) >>= _) = _
      rw [hz]
      rfl
  · push Not at h0
    have hck : checkHistograms signal background = .error .valueError :=
      C72_different_length signal background "reco_energy" low low' hs.low hb.low n1 n2 h0.1 h0.2 hlen
    unfold calculateSensitivity
    rw [hck]
    rfl

/-- **C21** With the Li&Ma significance, non-negative finite counts and alpha > 0, the table is always computed, and in each bin
where the relative sensitivity is finite the reported significance is at least `min_significance` and the reported signal at
least `min_signal_events` and `min_excess_over_background * alpha * n_background_weighted`. -/
theorem C21_thresholds_met (brentq : RootFn) (hrf : IsRootFinder brentq) (signal background : Table (FV ℝ)) (α : ℝ)
    (hα : 0 < α) (minSig minEvents minExcess : ℝ) (hm : 0 < minSig)
    (low center high sN sW bN bW : List (FV ℝ)) (hs : IsHist signal low center high sN sW)
    (hb : IsHist background low center high bN bW) (hnan : ∀ x ∈ low ++ center ++ high, x ≠ .nan)
    (hne : low ≠ []) (hres : ∀ c ∈ reserved, c ∉ background.names)
    (hsw : ∀ x ∈ sW, ∃ v, x = .fin v ∧ 0 ≤ v) (hbw : ∀ x ∈ bW, ∃ v, x = .fin v ∧ 0 ≤ v)  :
    ∃ out rel sgn nsw, calculateSensitivity brentq liMaSignificance signal background (.fin α)
        ⟨.fin minSig, .fin minEvents, .fin minExcess⟩ = .ok out ∧
      out.get "relative_sensitivity" = .ok rel ∧ out.get "significance" = .ok sgn ∧
      out.get "n_signal_weighted" = .ok nsw ∧
      ∀ (i : ℕ) (r b : ℝ), rel[i]? = some (.fin r) → bW[i]? = some (.fin b) →
        ∃ s v, sgn[i]? = some (.fin s) ∧ minSig ≤ s ∧ nsw[i]? = some (.fin v) ∧ minEvents ≤ v ∧
          minExcess * (α * b) ≤ v := by
  have hlen : sW.length = bW.length := by rw [← hs.len.1, ← hb.len.1]
  have hok : ∀ (i : ℕ) (h1 : i < sW.length) (h2 : i < bW.length),
      ∃ r, relativeSensitivity1 brentq liMaSignificance (sW[i] + .fin α * bW[i]) bW[i] (.fin α)
        ⟨.fin minSig, .fin minEvents, .fin minExcess⟩ = .ok r := by
    intro i h1 h2
    obtain ⟨s, es, hs0⟩ := hsw sW[i] (List.getElem_mem h1)
    obtain ⟨b, eb, hb0⟩ := hbw bW[i] (List.getElem_mem h2)
    rw [es, eb, FV.fin_mul_fin, FV.fin_add_fin]
    by_cases h : 0 < s
    · obtain ⟨q, hq, -⟩ := C20_total brentq hrf (s + α * b) b α minSig minEvents minExcess hb0 hα hm (by linarith)
      exact ⟨q, hq⟩
    · refine ⟨.pinf, ?_⟩
      exact (C17_input_handling brentq liMaSignificance _ _ (.fin α) _).2.2 _ _ α rfl rfl rfl (by positivity) hb0 (by linarith)
  obtain ⟨out, rel, sgn, hout, -, -, -, -, -, -, hrel, hrl, hri, -, hnsw, hsgn, hsl, hsi⟩ :=
    C21_table brentq liMaSignificance signal background (.fin α) ⟨.fin minSig, .fin minEvents, .fin minExcess⟩
      low center high sN sW bN bW hs hb hnan hne hres hok
  refine ⟨out, rel, sgn, _, hout, hrel, hsgn, hnsw, ?_⟩
  intro i r b hr hbi
  obtain ⟨h3, er⟩ := List.getElem?_eq_some_iff.mp hr
  obtain ⟨h2, eb⟩ := List.getElem?_eq_some_iff.mp hbi
  have h1 : i < sW.length := by omega
  have h4 : i < sgn.length := by have := hs.len.1; omega
  obtain ⟨s, es, hs0⟩ := hsw sW[i] (List.getElem_mem h1)
  obtain ⟨b', eb', hb0⟩ := hbw bW[i] (List.getElem_mem h2)
  have hbb : b' = b := by rw [eb] at eb'; exact (FV.fin.inj eb').symm
  subst hbb
  have hi := hri i h1 h2 h3
  have hsg := hsi i h1 h2 h3 h4
  rw [es, eb, er, FV.fin_mul_fin, FV.fin_add_fin] at hi
  rw [es, eb, er, FV.fin_mul_fin, FV.fin_mul_fin, FV.fin_add_fin] at hsg
  obtain ⟨hrp, ⟨⟨q, hq, hq2⟩, hq3, hq4⟩, -⟩ := C18_least_detectable brentq hrf _ _ _ _ _ _ _ (by positivity) hb0 hα hm hi
  have e : s + α * b' - α * b' = s := by ring
  rw [e] at hq hq3 hq4
  refine ⟨q, s * r, ?_, hq2, ?_, hq3, hq4⟩
  · rw [List.getElem?_eq_getElem h4, hsg, hq]
  · rw [List.getElem?_eq_getElem (by simp; omega), List.getElem_zipWith, es, er, FV.fin_mul_fin]

/-- **C21** (the exception) If a background particle type is called `signal`, its column replaces the scaled signal counts:
`n_signal` of the output is the background's column. -/
theorem C21_name_clash (brentq : RootFn) (sig : SigFn) (signal background : Table (FV ℝ)) (alpha : FV ℝ) (th : Thresholds)
    (col : List (FV ℝ)) (hb : background.names.Nodup) (hclash : background.get "n_signal" = .ok col) (out : Table (FV ℝ))
    (hout : calculateSensitivity brentq sig signal background alpha th = .ok out) : out.get "n_signal" = .ok col := by
  unfold calculateSensitivity at hout
  simp only [bind, Except.bind] at hout
  repeat (split at hout; · exact absurd hout (by simp))
  simp only [pure, Except.pure] at hout
  obtain rfl := Except.ok.inj hout
  rw [Table.get_set_ne _ _ _ _ (by decide), Table.get_set_ne _ _ _ _ (by decide)]
  exact get_base_copied hb (by decide) hclash

/-! ## The hypotheses can be met -/

/-- a signal histogram with two bins -/
noncomputable def exSignal : Table (FV ℝ) := ⟨[("reco_energy_low", [.fin 1, .fin 2]), ("reco_energy_high", [.fin 2, .fin 4]),
  ("reco_energy_center", [.fin (3/2), .fin 3]), ("n", [.fin 4, .fin 5]), ("n_weighted", [.fin 30, .fin 0])]⟩
/-- a background histogram with two bins and a particle type -/
noncomputable def exBackground : Table (FV ℝ) := ⟨[("reco_energy_low", [.fin 1, .fin 2]), ("reco_energy_high", [.fin 2, .fin 4]),
  ("reco_energy_center", [.fin (3/2), .fin 3]), ("n", [.fin 7, .fin 8]), ("n_weighted", [.fin 100, .fin 10]),
  ("n_proton", [.fin 7, .fin 8]), ("n_proton_weighted", [.fin 100, .fin 10])]⟩

example : ∃ out rel sgn nsw, calculateSensitivity idealRoot liMaSignificance exSignal exBackground (.fin (1/5))
      ⟨.fin 5, .fin 10, .fin (1/20)⟩ = .ok out ∧
      out.get "relative_sensitivity" = .ok rel ∧ out.get "significance" = .ok sgn ∧
      out.get "n_signal_weighted" = .ok nsw ∧
      ∀ (i : ℕ) (r b : ℝ), rel[i]? = some (.fin r) → [FV.fin (100 : ℝ), .fin 10][i]? = some (.fin b) →
        ∃ s v, sgn[i]? = some (.fin s) ∧ 5 ≤ s ∧ nsw[i]? = some (.fin v) ∧ 10 ≤ v ∧ 1/20 * (1/5 * b) ≤ v := by
  refine C21_thresholds_met idealRoot idealRoot_isRootFinder exSignal exBackground (1/5) (by norm_num) 5 10 (1/20) (by norm_num)
    [.fin 1, .fin 2] [.fin (3/2), .fin 3] [.fin 2, .fin 4] [.fin 4, .fin 5] [.fin 30, .fin 0] [.fin 7, .fin 8]
    [.fin 100, .fin 10] ?_ ?_ ?_ (by simp) ?_ ?_ ?_
  · constructor <;> first | rfl | exact ⟨rfl, rfl, rfl, rfl⟩ | decide
  · constructor <;> first | rfl | exact ⟨rfl, rfl, rfl, rfl⟩ | decide
  · simp
  · decide
  · simp
  · simp

end Pyirf.Sensitivity
