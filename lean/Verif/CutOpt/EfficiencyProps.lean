import Verif.CutOpt.TotalProps
import Verif.Cuts.PercentileProps

/-!
# Property C110: the reported efficiency belongs to the returned cut
-/
set_option linter.unusedSectionVars false
set_option linter.unusedSimpArgs false

namespace Pyirf.CutOpt
open Pyirf Pyirf.Binning Pyirf.Cuts Pyirf.Sensitivity Pyirf.Utils

/-! ## Specification -/

/-- `v` is the cut of bin `i` for the percentile `p` of some (value, energy) pairs: with fewer than ten pairs in the bin it is
`fill`; otherwise, if no value in the bin is infinite, the percentile of the values that are not NaN, clipped to the bounds, or NaN if there
is no such value. -/
structure IsCut (evs : List (FV ℝ × FV ℝ)) (bins : List (FV ℝ)) (i : ℕ) (p : ℝ) (lo hi : Option ℝ) (fill v : FV ℝ) : Prop where
  /-- too few events -/
  few : (eventsIn bins i evs).length < 10 → v = fill
  /-- only NaN -/
  none : 10 ≤ (eventsIn bins i evs).length → FiniteOrNan (eventsIn bins i evs) → goodValues (eventsIn bins i evs) = [] → v = .nan
  /-- the percentile -/
  some : 10 ≤ (eventsIn bins i evs).length → FiniteOrNan (eventsIn bins i evs) → goodValues (eventsIn bins i evs) ≠ [] →
    ∃ q, IsPercentile (goodValues (eventsIn bins i evs)) p q ∧ v = .fin (clamp lo hi q)

/-- `m` is the largest element of `l`, or NaN if `l` has a NaN. -/
def IsMax (l : List (FV ℝ)) (m : FV ℝ) : Prop := m ∈ l ∧ ((∃ x ∈ l, x = .nan) → m = .nan) ∧ ((∀ x ∈ l, x ≠ .nan) → ∀ x ∈ l, FV.le x m = true)
/-- `m` is the smallest element of `l`, or NaN if `l` has a NaN. -/
def IsMin (l : List (FV ℝ)) (m : FV ℝ) : Prop := m ∈ l ∧ ((∃ x ∈ l, x = .nan) → m = .nan) ∧ ((∀ x ∈ l, x ≠ .nan) → ∀ x ∈ l, FV.le m x = true)

/-! ## Lemmas -/

theorem foldl_maximum (xs : List (FV ℝ)) : ∀ x, IsMax (x :: xs) (xs.foldl FV.maximum x) := by
  induction xs with
  | nil => intro x; exact ⟨by simp, by simp [eq_comm], by intro h y hy; simp at hy h; subst hy; cases y <;> simp_all [FV.le]⟩
  | cons y ys ih =>
    intro x
    obtain ⟨h1, h2, h3⟩ := ih (FV.maximum x y)
    rw [List.foldl_cons]
    have hm : FV.maximum x y = x ∨ FV.maximum x y = y := by unfold FV.maximum; (repeat' split) <;> simp
    refine ⟨?_, ?_, ?_⟩
    · rcases List.mem_cons.mp h1 with h | h
      · rcases hm with e | e <;> rw [h, e] <;> simp
      · simp [h]
    · rintro ⟨z, hz, rfl⟩
      apply h2
      rcases List.mem_cons.mp hz with h | h
      · exact ⟨_, List.mem_cons_self, by rw [← h]; simp [FV.maximum, FV.isNan]⟩
      · rcases List.mem_cons.mp h with h | h
        · refine ⟨_, List.mem_cons_self, ?_⟩
          rw [← h]; cases x <;> simp [FV.maximum, FV.isNan]
        · exact ⟨_, List.mem_cons_of_mem _ h, rfl⟩
    · intro hn
      have hx : x ≠ .nan := hn x (by simp)
      have hy : y ≠ .nan := hn y (by simp)
      have key : FV.le x (FV.maximum x y) = true ∧ FV.le y (FV.maximum x y) = true := by
        have e1 : x.isNan = false := by cases x <;> simp_all
        have e2 : y.isNan = false := by cases y <;> simp_all
        unfold FV.maximum
        rcases FV.le_or_lt' hy hx with h | h
        · simp [e1, e2, FV.not_lt_of_le h, h, FV.le_refl' hx]
        · simp [e1, e2, h, FV.le_of_lt' h, FV.le_refl' hy]
      have h4 := h3 (by
        intro z hz
        rcases List.mem_cons.mp hz with h | h
        · rcases hm with e | e <;> rw [h, e] <;> assumption
        · exact hn z (by simp [h]))
      intro z hz
      rcases List.mem_cons.mp hz with h | h
      · rw [h]; exact FV.le_trans' key.1 (h4 _ (by simp))
      · rcases List.mem_cons.mp h with h | h
        · rw [h]; exact FV.le_trans' key.2 (h4 _ (by simp))
        · exact h4 z (by simp [h])

theorem foldl_minimum (xs : List (FV ℝ)) : ∀ x, IsMin (x :: xs) (xs.foldl FV.minimum x) := by
  induction xs with
  | nil => intro x; exact ⟨by simp, by simp [eq_comm], by intro h y hy; simp at hy h; subst hy; cases y <;> simp_all [FV.le]⟩
  | cons y ys ih =>
    intro x
    obtain ⟨h1, h2, h3⟩ := ih (FV.minimum x y)
    rw [List.foldl_cons]
    have hm : FV.minimum x y = x ∨ FV.minimum x y = y := by unfold FV.minimum; (repeat' split) <;> simp
    refine ⟨?_, ?_, ?_⟩
    · rcases List.mem_cons.mp h1 with h | h
      · rcases hm with e | e <;> rw [h, e] <;> simp
      · simp [h]
    · rintro ⟨z, hz, rfl⟩
      apply h2
      rcases List.mem_cons.mp hz with h | h
      · exact ⟨_, List.mem_cons_self, by rw [← h]; simp [FV.minimum, FV.isNan]⟩
      · rcases List.mem_cons.mp h with h | h
        · refine ⟨_, List.mem_cons_self, ?_⟩
          rw [← h]; cases x <;> simp [FV.minimum, FV.isNan]
        · exact ⟨_, List.mem_cons_of_mem _ h, rfl⟩
    · intro hn
      have hx : x ≠ .nan := hn x (by simp)
      have hy : y ≠ .nan := hn y (by simp)
      have key : FV.le (FV.minimum x y) x = true ∧ FV.le (FV.minimum x y) y = true := by
        have e1 : x.isNan = false := by cases x <;> simp_all
        have e2 : y.isNan = false := by cases y <;> simp_all
        unfold FV.minimum
        rcases FV.le_or_lt' hx hy with h | h
        · simp [e1, e2, FV.not_lt_of_le h, h, FV.le_refl' hx]
        · simp [e1, e2, h, FV.le_of_lt' h, FV.le_refl' hy]
      have h4 := h3 (by
        intro z hz
        rcases List.mem_cons.mp hz with h | h
        · rcases hm with e | e <;> rw [h, e] <;> assumption
        · exact hn z (by simp [h]))
      intro z hz
      rcases List.mem_cons.mp hz with h | h
      · rw [h]; exact FV.le_trans' (h4 _ (by simp)) key.1
      · rcases List.mem_cons.mp h with h | h
        · rw [h]; exact FV.le_trans' (h4 _ (by simp)) key.2
        · exact h4 z (by simp [h])

theorem npMax_isMax {l : List (FV ℝ)} {m : FV ℝ} (h : npMax l = .ok m) : IsMax l m := by
  cases l with
  | nil => simp [npMax] at h
  | cons x xs => simp only [npMax, Except.ok.injEq] at h; rw [← h]; exact foldl_maximum xs x

theorem npMin_isMin {l : List (FV ℝ)} {m : FV ℝ} (h : npMin l = .ok m) : IsMin l m := by
  cases l with
  | nil => simp [npMin] at h
  | cons x xs => simp only [npMin, Except.ok.injEq] at h; rw [← h]; exact foldl_minimum xs x

/-- a column of a grid of percentile cuts -/
theorem isCut_column {evs : List (FV ℝ × FV ℝ)} {bins : List (FV ℝ)} {fill : FV ℝ} {ps : List ℝ} {lo hi : Option ℝ}
    (hb : Increasing bins) (hl : 0 < bins.length) (hps : ∀ p ∈ ps, 0 ≤ p ∧ p ≤ 100) {grid : CutTable ℝ (List (FV ℝ))}
    (hg : percentileCuts evs bins fill ps (lo.map .fin) (hi.map .fin) 10 = .ok grid) {i j : ℕ} {p : ℝ} {v : FV ℝ} (hj : ps[j]? = .some p)
    (hv : ((cutColumn grid j).cut)[i]? = .some v) : IsCut evs bins i p lo hi fill v := by
  have hin : ∃ e ∈ evs, ∃ i, InBin bins i e.2 := by
    by_contra hin
    push Not at hin
    rw [(C08_no_event_in_bins evs bins fill 0 ps (lo.map .fin) (hi.map .fin) 10 hb hl hin).2] at hg
    exact absurd hg (by simp)
  obtain ⟨t, h1, h2⟩ := C08_several_percentiles evs bins fill ps (lo.map .fin) (hi.map .fin) 10 hb hl hps hin
  rw [hg] at h1
  cases h1
  obtain ⟨hjl, hje⟩ := List.getElem?_eq_some_iff.mp hj
  obtain ⟨tj, h3, -, -, -, h4⟩ := h2 j hjl
  rw [hje] at h3
  have hp := hps p (List.mem_of_getElem? hj)
  obtain ⟨t', h5, -, -, hn, hc, h6⟩ := C08_table evs bins fill p lo hi 10 hb hl hp.1 hp.2 hin
  rw [h3] at h5
  cases h5
  have hcol : (cutColumn grid j).cut = tj.cut := by
    have h7 := congrArg (List.map fun o : Option (FV ℝ) => o.getD .nan) h4
    simp only [List.map_map] at h7
    have e2 : List.map ((fun o : Option (FV ℝ) => o.getD .nan) ∘ Option.some) tj.cut = tj.cut := by
      rw [show ((fun o : Option (FV ℝ) => o.getD .nan) ∘ Option.some) = id from rfl, List.map_id]
    rw [e2] at h7
    rw [← h7]
    simp only [cutColumn]
    apply List.map_congr_left
    intro row _
    simp [List.getD_eq_getElem?_getD]
  rw [hcol] at hv
  obtain ⟨hi', hv⟩ := List.getElem?_eq_some_iff.mp hv
  obtain ⟨a1, a2, a3⟩ := h6 i (by omega)
  subst hv
  rw [a1] at a2 a3
  refine ⟨fun h => a2 (Or.inr (by omega)), fun h hf hg => (a3 (by omega) (by omega) hf).1 hg, fun h hf hg => ?_⟩
  have := isPercentile_of_quantileSorted hg hp.1 hp.2
  exact ⟨_, this, (a3 (by omega) (by omega) hf).2 _ hg this⟩

/-! ## C110 -/

variable {c : Ctx} {E : List (FV ℝ)}

/-- **C110** (`optimize_gh_cut`, operator like `<=`) Whenever the call returns, every bin's reported efficiency `e` is one of the given ones and
the returned cut is the 100·e percentile of the gh scores of the bin's signal events, or the smallest score of all signal events if the bin has fewer than
ten. -/
theorem C110_gh_like_le (hbins : c.bins = E) (hE : Np.Increasing1 E) (hs : NoWeighted c.signal)
    (hb : NoWeighted c.background) (ghEff : List ℝ) (heff : ∀ x ∈ ghEff, 0 ≤ x ∧ x ≤ 1) (thetaCuts : CutTable ℝ (FV ℝ))
    (op : FV ℝ → FV ℝ → Bool) (hop : op (.fin (-1)) (.fin 1) = true) (out : BestGh)
    (hok : optimizeGhCut c ghEff thetaCuts op = .ok out) :
    ∃ fill, IsMin (c.signal.rows.map Ev.gh) fill ∧ ∀ i < E.length - 1, ∃ e ∈ ghEff, out.ghEff[i]? = some (.fin e) ∧
      ∃ v, out.gh[i]? = some v ∧ IsCut (c.signal.rows.map fun x => (x.gh, x.energy)) c.bins i (100 * e) none none fill v := by
  obtain ⟨cuts, tables, h1, -, hpos, -, h2⟩ := optimizeGhCut_spec hbins hE hs hb ghEff thetaCuts op out hok
  obtain ⟨mask0, setup0, -, -, hset0, -⟩ := h1 0 hpos
  have hsetup : ∃ f, ghScanSetup c ghEff op = .ok (ghEff.map fun x => 100 * x, f) ∧ IsMin (c.signal.rows.map Ev.gh) f := by
    unfold ghScanSetup at hset0 ⊢
    rw [if_pos hop] at hset0 ⊢
    cases hf : npMin (c.signal.rows.map Ev.gh) with
    | error e => rw [hf] at hset0; simp at hset0
    | ok f => exact ⟨f, rfl, npMin_isMin hf⟩
  obtain ⟨f, hf, hmin⟩ := hsetup
  refine ⟨f, hmin, fun i hi => ?_⟩
  obtain ⟨rels, a, b, j, r, v, e, q1, q2, q3, q4, q5, q6, q7, q8⟩ := h2 i hi
  refine ⟨e, List.mem_of_getElem? q6, q7, v, q5, ?_⟩
  have hj : j < ghEff.length := (List.getElem?_eq_some_iff.mp q6).1
  obtain ⟨mask, setup, grid, -, g1, g2, g3, -⟩ := h1 j hj
  rw [hf] at g1
  cases g1
  rw [g3] at q4
  refine isCut_column (lo := none) (hi := none) (by rw [hbins]; exact hE.increasing) ?_ ?_ g2 (j := j) ?_ q4
  · rw [hbins]; omega
  · intro p hp
    obtain ⟨x, hx, rfl⟩ := List.mem_map.mp hp
    have := heff x hx
    constructor <;> linarith
  · rw [List.getElem?_map, q6]; rfl

/-- **C110** (`optimize_gh_cut`, operator like `>=`) Whenever the call returns, every bin's reported efficiency `e` is one of the given ones and
the returned cut is the 100·(1-e) percentile of the gh scores of the bin's signal events, or the largest score of all signal events if the bin has fewer
than ten. -/
theorem C110_gh_like_ge (hbins : c.bins = E) (hE : Np.Increasing1 E) (hs : NoWeighted c.signal)
    (hb : NoWeighted c.background) (ghEff : List ℝ) (heff : ∀ x ∈ ghEff, 0 ≤ x ∧ x ≤ 1) (thetaCuts : CutTable ℝ (FV ℝ))
    (op : FV ℝ → FV ℝ → Bool) (hop : op (.fin (-1)) (.fin 1) = false) (out : BestGh)
    (hok : optimizeGhCut c ghEff thetaCuts op = .ok out) :
    ∃ fill, IsMax (c.signal.rows.map Ev.gh) fill ∧ ∀ i < E.length - 1, ∃ e ∈ ghEff, out.ghEff[i]? = some (.fin e) ∧
      ∃ v, out.gh[i]? = some v ∧ IsCut (c.signal.rows.map fun x => (x.gh, x.energy)) c.bins i (100 * (1 - e)) none none fill v := by
  obtain ⟨cuts, tables, h1, -, hpos, -, h2⟩ := optimizeGhCut_spec hbins hE hs hb ghEff thetaCuts op out hok
  obtain ⟨mask0, setup0, -, -, hset0, -⟩ := h1 0 hpos
  have hsetup : ∃ f, ghScanSetup c ghEff op = .ok (ghEff.map fun x => 100 * (1 - x), f) ∧ IsMax (c.signal.rows.map Ev.gh) f := by
    unfold ghScanSetup at hset0 ⊢
    rw [if_neg (by simp [hop])] at hset0 ⊢
    cases hf : npMax (c.signal.rows.map Ev.gh) with
    | error e => rw [hf] at hset0; simp at hset0
    | ok f => exact ⟨f, rfl, npMax_isMax hf⟩
  obtain ⟨f, hf, hmin⟩ := hsetup
  refine ⟨f, hmin, fun i hi => ?_⟩
  obtain ⟨rels, a, b, j, r, v, e, q1, q2, q3, q4, q5, q6, q7, q8⟩ := h2 i hi
  refine ⟨e, List.mem_of_getElem? q6, q7, v, q5, ?_⟩
  have hj : j < ghEff.length := (List.getElem?_eq_some_iff.mp q6).1
  obtain ⟨mask, setup, grid, -, g1, g2, g3, -⟩ := h1 j hj
  rw [hf] at g1
  cases g1
  rw [g3] at q4
  refine isCut_column (lo := none) (hi := none) (by rw [hbins]; exact hE.increasing) ?_ ?_ g2 (j := j) ?_ q4
  · rw [hbins]; omega
  · intro p hp
    obtain ⟨x, hx, rfl⟩ := List.mem_map.mp hp
    have := heff x hx
    constructor <;> linarith
  · rw [List.getElem?_map, q6]; rfl

/-- `operator.le` and `operator.ge` are such operators. -/
example : (FV.le (.fin (-1)) (.fin 1) : Bool) = true ∧ (FV.ge (FV.fin (-1 : ℝ)) (.fin 1)) = false := by
  constructor <;> simp [FV.le, FV.ge] <;> norm_num

theorem cuts_spec
    (hbins : c.bins = E) (hE : Np.Increasing1 E) (hs : NoWeighted c.signal)
    (hb : NoWeighted c.background) (g : Grid) (hgh : ∀ x ∈ g.ghEff, 0 ≤ x ∧ x ≤ 1) (hth : ∀ x ∈ g.thetaEff, 0 ≤ x ∧ x ≤ 1)
    (lo hi : ℝ) (hlo : g.thetaMin = .fin lo) (hhi : g.thetaMax = .fin hi) (out : Best) (hok : optimizeCuts c g = .ok out) :
    ∃ fill, IsMax (c.signal.rows.map Ev.gh) fill ∧ ∀ i < E.length - 1, ∃ m ∈ g.mults, ∃ e ∈ g.ghEff, ∃ e' ∈ g.thetaEff,
      out.mult[i]? = some m ∧ out.ghEff[i]? = some (.fin e) ∧ out.thetaEff[i]? = some (.fin e') ∧
      (∃ v, out.gh[i]? = some v ∧ IsCut ((c.signal.rows.filter fun x => FV.ge x.mult m).map fun x => (x.gh, x.energy)) c.bins i
        (100 * (1 - e)) none none fill v) ∧
      ∃ v, out.theta[i]? = some v ∧ IsCut ((c.signal.rows.filter fun x => FV.ge x.mult m).map fun x => (x.theta, x.energy)) c.bins i
        (if g.thetaIsList then e' else 100 * e') (some lo) (some hi) (.fin hi) v := by
  obtain ⟨-, ⟨m0, theta0, gh0, T0, ⟨fill, _, _, _, _, hfill, -⟩, -⟩, -, -, h⟩ := optimizeCuts_spec hbins hE hs hb g out hok
  refine ⟨fill, npMax_isMax hfill, fun i hi' => ?_⟩
  obtain ⟨rels, h2, h3, k, mi, ti, gi, m, theta, gh, T, r, tv, gv, te, ge, q1, q2, q3, q4, q5, q6, q7, q8, q9, q10, q11,
    q12, q13, q14, q15⟩ := h i hi'
  obtain ⟨fill', sIdx, bIdx, ghT, thT, c1, c2, c3, c4, c5, c6, c7, c8, -⟩ := q4
  rw [hfill] at c1
  cases c1
  have hinc : Increasing c.bins := by rw [hbins]; exact hE.increasing
  have hlen : 0 < c.bins.length := by rw [hbins]; omega
  refine ⟨m, List.mem_of_getElem? c4, ge, List.mem_of_getElem? q13, te, List.mem_of_getElem? q11, q6, q14, q12,
    ⟨gv, q10, ?_⟩, tv, q8, ?_⟩
  · rw [c8] at q9
    refine isCut_column (lo := none) (hi := none) hinc hlen ?_ c5 (j := gi) ?_ q9
    · intro p hp
      obtain ⟨x, hx, rfl⟩ := List.mem_map.mp hp
      have := hgh x hx
      constructor <;> linarith
    · rw [List.getElem?_map, q13]; rfl
  · rw [c7] at q7
    unfold thetaGrid at c6
    rw [hlo, hhi] at c6
    refine isCut_column (lo := some lo) (hi := some hi) hinc hlen ?_ c6 (j := ti) ?_ q7
    · exact fun p hp => thetaPercentiles_range hth hp
    · exact thetaPercentiles_get q11

/-- **C110** (`optimize_cuts`) Whenever the call returns and the theta efficiencies are an array, in every bin: the returned gh cut is the 100·(1-e) percentile of the gh scores, and the
theta cut the 100·e' percentile of theta clipped to the given range, both of the signal events in the bin with at least the returned multiplicity, where
`e` and `e'` are the returned efficiencies; with fewer than ten such events the gh cut is the largest score of all signal events and the theta cut the
upper bound. -/
theorem C110_cuts
    (hbins : c.bins = E) (hE : Np.Increasing1 E) (hs : NoWeighted c.signal)
    (hb : NoWeighted c.background) (g : Grid) (harr : g.thetaIsList = false) (hgh : ∀ x ∈ g.ghEff, 0 ≤ x ∧ x ≤ 1) (hth : ∀ x ∈ g.thetaEff, 0 ≤ x ∧ x ≤ 1)
    (lo hi : ℝ) (hlo : g.thetaMin = .fin lo) (hhi : g.thetaMax = .fin hi) (out : Best) (hok : optimizeCuts c g = .ok out) :
    ∃ fill, IsMax (c.signal.rows.map Ev.gh) fill ∧ ∀ i < E.length - 1, ∃ m ∈ g.mults, ∃ e ∈ g.ghEff, ∃ e' ∈ g.thetaEff,
      out.mult[i]? = some m ∧ out.ghEff[i]? = some (.fin e) ∧ out.thetaEff[i]? = some (.fin e') ∧
      (∃ v, out.gh[i]? = some v ∧ IsCut ((c.signal.rows.filter fun x => FV.ge x.mult m).map fun x => (x.gh, x.energy)) c.bins i
        (100 * (1 - e)) none none fill v) ∧
      ∃ v, out.theta[i]? = some v ∧ IsCut ((c.signal.rows.filter fun x => FV.ge x.mult m).map fun x => (x.theta, x.energy)) c.bins i
        (100 * e') (some lo) (some hi) (.fin hi) v := by
  have h := cuts_spec hbins hE hs hb g hgh hth lo hi hlo hhi out hok
  simp only [harr, Bool.false_eq_true, if_false] at h
  exact h

/-- **C111** If the theta efficiencies are given as a Python list the call still returns, reports the listed efficiencies `e'`, but the returned theta
cut of every bin is the e'-th percentile of theta (of 100), not the 100·e'-th. -/
theorem C111_theta_list
    (hbins : c.bins = E) (hE : Np.Increasing1 E) (hs : NoWeighted c.signal)
    (hb : NoWeighted c.background) (g : Grid) (hlist : g.thetaIsList = true) (hgh : ∀ x ∈ g.ghEff, 0 ≤ x ∧ x ≤ 1) (hth : ∀ x ∈ g.thetaEff, 0 ≤ x ∧ x ≤ 1)
    (lo hi : ℝ) (hlo : g.thetaMin = .fin lo) (hhi : g.thetaMax = .fin hi) (out : Best) (hok : optimizeCuts c g = .ok out) :
    ∃ fill, IsMax (c.signal.rows.map Ev.gh) fill ∧ ∀ i < E.length - 1, ∃ m ∈ g.mults, ∃ e ∈ g.ghEff, ∃ e' ∈ g.thetaEff,
      out.mult[i]? = some m ∧ out.ghEff[i]? = some (.fin e) ∧ out.thetaEff[i]? = some (.fin e') ∧
      (∃ v, out.gh[i]? = some v ∧ IsCut ((c.signal.rows.filter fun x => FV.ge x.mult m).map fun x => (x.gh, x.energy)) c.bins i
        (100 * (1 - e)) none none fill v) ∧
      ∃ v, out.theta[i]? = some v ∧ IsCut ((c.signal.rows.filter fun x => FV.ge x.mult m).map fun x => (x.theta, x.energy)) c.bins i
        e' (some lo) (some hi) (.fin hi) v := by
  have h := cuts_spec hbins hE hs hb g hgh hth lo hi hlo hhi out hok
  simp only [hlist, if_true] at h
  exact h

/-- **C111** (what that means) In a bin with at most 101 values at most one of them lies below the e'-th percentile, for every efficiency e' in [0, 1]. -/
theorem C111_few_pass (xs : List ℝ) (e' v : ℝ) (h1 : e' ≤ 1) (hn : xs.length ≤ 101) (hv : IsPercentile xs e' v) :
    xs.countP (fun x => decide (x < v)) ≤ 1 := by
  obtain ⟨s, s1, s2, i, f, f0, f1, fe, hi, rfl⟩ := hv
  have hl := s1.length_eq
  have hpos : 1 ≤ xs.length := by omega
  have hn' : (xs.length : ℝ) ≤ 101 := by exact_mod_cast hn
  have hpos' : (1 : ℝ) ≤ xs.length := by exact_mod_cast hpos
  have hif : (i : ℝ) + f ≤ 1 := by
    rw [fe]
    have : ((xs.length : ℝ) - 1) * (e' / 100) ≤ ((xs.length : ℝ) - 1) * (1 / 100) :=
      mul_le_mul_of_nonneg_left (by linarith) (by linarith)
    linarith
  rw [← s1.countP_eq]
  match s, s2, hi with
  | [], _, hi => simp at hi
  | [a], _, _ => exact List.countP_le_length
  | a :: b :: l, s2, hi =>
    have hab : a ≤ b := (List.pairwise_cons.mp s2).1 b (by simp)
    have hvb : (a :: b :: l)[i] + f * ((a :: b :: l).getD (i + 1) (a :: b :: l)[i] - (a :: b :: l)[i]) ≤ b := by
      have hi1 : i ≤ 1 := by
        have : (i : ℝ) ≤ 1 := by linarith
        exact_mod_cast this
      interval_cases i
      · simp; nlinarith
      · have : f = 0 := by push_cast at hif; linarith
        subst this; simp
    have hnone : (b :: l).countP (fun x => decide (x < (a :: b :: l)[i] + f * ((a :: b :: l).getD (i + 1) (a :: b :: l)[i]
        - (a :: b :: l)[i]))) = 0 := by
      rw [List.countP_eq_zero]
      intro x hx
      have hbx : b ≤ x := by
        rcases List.mem_cons.mp hx with rfl | h
        · exact le_refl _
        · exact (List.pairwise_cons.mp (List.pairwise_cons.mp s2).2).1 x h
      simp only [decide_eq_true_eq, not_lt]
      linarith
    rw [List.countP_cons, hnone]
    split <;> omega

/-- `optimize_gh_cut` on the example input, with both kinds of operator. -/
example : (∃ out, optimizeGhCut exCtx [1 / 2, 1] (asTable exCtx.bins [.fin 1, .fin (1 / 2)]) FV.ge = .ok out ∧
      ∃ e ∈ ([1 / 2, 1] : List ℝ), out.ghEff[0]? = some (.fin e)) ∧
    ∃ out, optimizeGhCut exCtx [1 / 2, 1] (asTable exCtx.bins [.fin 1, .fin (1 / 2)]) FV.le = .ok out ∧
      ∃ e ∈ ([1 / 2, 1] : List ℝ), out.ghEff[1]? = some (.fin e) := by
  have heff : ∀ x ∈ ([1 / 2, 1] : List ℝ), 0 ≤ x ∧ x ≤ 1 := by
    intro x hx; simp only [List.mem_cons, List.not_mem_nil, or_false] at hx; rcases hx with rfl | rfl <;> norm_num
  have hs : NoWeighted exCtx.signal := exCtx_wellFormed.sigParticle
  have hb : NoWeighted exCtx.background := exCtx_wellFormed.bgParticle
  constructor
  · obtain ⟨out, h⟩ := C79_optimize_gh_cut_succeeds exCtx_wellFormed [1 / 2, 1] (by simp) heff
      (asTable exCtx.bins [.fin 1, .fin (1 / 2)]) FV.ge exCtx.bins exCtx_wellFormed.incr (by simp [exCtx]) rfl rfl rfl (exCtx_sameTypesGh _) exCtx_inside
    obtain ⟨_, _, hq⟩ := C110_gh_like_ge exCtx_wellFormed.bins exCtx_wellFormed.incr hs hb _ heff _ _ (by simp [FV.ge, FV.le]) out h
    obtain ⟨e, h1, h2, -⟩ := hq 0 (by norm_num)
    exact ⟨out, h, e, h1, h2⟩
  · obtain ⟨out, h⟩ := C79_optimize_gh_cut_succeeds exCtx_wellFormed [1 / 2, 1] (by simp) heff
      (asTable exCtx.bins [.fin 1, .fin (1 / 2)]) FV.le exCtx.bins exCtx_wellFormed.incr (by simp [exCtx]) rfl rfl rfl (exCtx_sameTypesGh _) exCtx_inside
    obtain ⟨_, _, hq⟩ := C110_gh_like_le exCtx_wellFormed.bins exCtx_wellFormed.incr hs hb _ heff _ _ (by simp [FV.le]) out h
    obtain ⟨e, h1, h2, -⟩ := hq 1 (by norm_num)
    exact ⟨out, h, e, h1, h2⟩

/-- `optimize_cuts` on the example input. -/
example : ∃ out, optimizeCuts exCtx exGrid = .ok out ∧ ∀ i < 2, ∃ m ∈ exGrid.mults, out.mult[i]? = some m := by
  have h1 : ∀ x ∈ exGrid.ghEff, 0 ≤ x ∧ x ≤ 1 := by
    intro x hx; simp only [exGrid, List.mem_cons, List.not_mem_nil, or_false] at hx; rcases hx with rfl | rfl <;> norm_num
  have h2 : ∀ x ∈ exGrid.thetaEff, 0 ≤ x ∧ x ≤ 1 := by
    intro x hx; simp only [exGrid, List.mem_cons, List.not_mem_nil, or_false] at hx; rcases hx with rfl | rfl <;> norm_num
  obtain ⟨out, h⟩ := C79_optimize_cuts_succeeds exCtx_wellFormed exGrid (by simp [exGrid]) (by simp [exGrid]) (by simp [exGrid]) h1 h2 exCtx_sameTypes exCtx_insideMult
  have hs : NoWeighted exCtx.signal := exCtx_wellFormed.sigParticle
  have hb : NoWeighted exCtx.background := exCtx_wellFormed.bgParticle
  obtain ⟨_, _, hq⟩ := C110_cuts exCtx_wellFormed.bins exCtx_wellFormed.incr hs hb exGrid rfl h1 h2 _ _ rfl rfl out h
  exact ⟨out, h, fun i hi => by obtain ⟨m, hm, e, he, e', he', h3, -⟩ := hq i hi; exact ⟨m, hm, h3⟩⟩

/-- `optimize_cuts` with a Python list. -/
example : ∃ out, optimizeCuts exCtx { exGrid with thetaIsList := true } = .ok out ∧
    ∀ i < 2, ∃ e' ∈ exGrid.thetaEff, out.thetaEff[i]? = some (.fin e') := by
  have h1 : ∀ x ∈ exGrid.ghEff, 0 ≤ x ∧ x ≤ 1 := by
    intro x hx; simp only [exGrid, List.mem_cons, List.not_mem_nil, or_false] at hx; rcases hx with rfl | rfl <;> norm_num
  have h2 : ∀ x ∈ exGrid.thetaEff, 0 ≤ x ∧ x ≤ 1 := by
    intro x hx; simp only [exGrid, List.mem_cons, List.not_mem_nil, or_false] at hx; rcases hx with rfl | rfl <;> norm_num
  obtain ⟨out, h⟩ := C79_optimize_cuts_succeeds exCtx_wellFormed { exGrid with thetaIsList := true } (by simp [exGrid]) (by simp [exGrid])
    (by simp [exGrid]) h1 h2 exCtx_sameTypes exCtx_insideMult
  have hs : NoWeighted exCtx.signal := exCtx_wellFormed.sigParticle
  have hb : NoWeighted exCtx.background := exCtx_wellFormed.bgParticle
  obtain ⟨_, _, hq⟩ := C111_theta_list exCtx_wellFormed.bins exCtx_wellFormed.incr hs hb { exGrid with thetaIsList := true } rfl h1 h2
    _ _ rfl rfl out h
  exact ⟨out, h, fun i hi => by obtain ⟨m, hm, e, he, e', he', h3, h4, h5, -⟩ := hq i hi; exact ⟨e', he', h5⟩⟩

/-- The half percentile of eleven values, as obtained from `[0.5]`, is close to the smallest one. -/
example : IsPercentile [0, 1, 2, 3, 4, 5, 6, 7, 8, 9, 10] (1 / 2) (5 / 100 : ℝ) :=
  ⟨[0, 1, 2, 3, 4, 5, 6, 7, 8, 9, 10], List.Perm.refl _, by norm_num, 0, 5 / 100, by norm_num, by norm_num, by norm_num, by norm_num,
    by norm_num⟩

end Pyirf.CutOpt
