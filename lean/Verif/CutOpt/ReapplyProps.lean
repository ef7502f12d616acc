import Verif.CutOpt.BestProps
import Verif.Cuts.EvalProps

/-!
# Property C25: applying the optimized cuts reproduces the reported sensitivity
-/
set_option linter.unusedSectionVars false
set_option linter.unusedSimpArgs false

namespace Pyirf.CutOpt
open Pyirf Pyirf.Binning Pyirf.Cuts Pyirf.Sensitivity Pyirf.Utils

/-! ## Specification -/

/-- The per-bin cuts as a cut table over the energy bins (as the optimizers return them). -/
noncomputable def asTable (bins cut : List (FV ℝ)) : CutTable ℝ (FV ℝ) := ⟨bins.dropLast, bins.tail, binCenter bins, [], cut⟩

/-- What a user does with the result of `optimize_cuts`: select the events with `evaluate_binned_cut` for the three cut tables
(multiplicity and gh score at least, theta at most the cut; background without theta cut), histogram them and compute the
sensitivity. -/
noncomputable def reapply (c : Ctx) (mult theta gh : List (FV ℝ)) : Except Err (Table (FV ℝ)) := do
  let sE := c.signal.rows.map Ev.energy
  let bE := c.background.rows.map Ev.energy
  let m1 ← evaluateBinnedCut true (c.signal.rows.map Ev.mult) sE (asTable c.bins mult) FV.ge
  let m2 ← evaluateBinnedCut true (c.signal.rows.map Ev.theta) sE (asTable c.bins theta) FV.le
  let m3 ← evaluateBinnedCut true (c.signal.rows.map Ev.gh) sE (asTable c.bins gh) FV.ge
  let b1 ← evaluateBinnedCut true (c.background.rows.map Ev.mult) bE (asTable c.bins mult) FV.ge
  let b3 ← evaluateBinnedCut true (c.background.rows.map Ev.gh) bE (asTable c.bins gh) FV.ge
  sensitivityOf c (andMask m1 (andMask m2 m3)) (andMask b1 b3) (asTable c.bins theta)

/-- The same for `optimize_gh_cut`, with its theta cut table and comparison. -/
noncomputable def reapplyGh (c : Ctx) (thetaCuts : CutTable ℝ (FV ℝ)) (op : FV ℝ → FV ℝ → Bool) (gh : List (FV ℝ)) :
    Except Err (Table (FV ℝ)) := do
  let sE := c.signal.rows.map Ev.energy
  let bE := c.background.rows.map Ev.energy
  let m2 ← evaluateBinnedCut true (c.signal.rows.map Ev.theta) sE thetaCuts FV.le
  let m3 ← evaluateBinnedCut true (c.signal.rows.map Ev.gh) sE (asTable c.bins gh) op
  let b3 ← evaluateBinnedCut true (c.background.rows.map Ev.gh) bE (asTable c.bins gh) op
  sensitivityOf c (andMask m2 m3) b3 thetaCuts

/-! ## Lemmas -/

open Classical in
/-- the value passes the cut of its bin -/
noncomputable def passes (bins cut : List (FV ℝ)) (op : FV ℝ → FV ℝ → Bool) (v b : FV ℝ) : Bool :=
  decide (∃ i x, InBin bins i b ∧ cut[i]? = some x ∧ op v x = true)

theorem passes_iff {bins cut : List (FV ℝ)} {op : FV ℝ → FV ℝ → Bool} {v b : FV ℝ} :
    passes bins cut op v b = true ↔ ∃ i x, InBin bins i b ∧ cut[i]? = some x ∧ op v x = true := by
  unfold passes; exact dec_iff

theorem byIndex_mask {bins : List (FV ℝ)} (h : Increasing bins) (hl : 0 < bins.length) (t : CutTable ℝ (FV ℝ))
    (hc : t.cut.length = bins.length - 1) (op : FV ℝ → FV ℝ → Bool) (vals bvals : List (FV ℝ)) :
    evaluateBinnedCutByIndex true vals (bvals.map (binIdx bins)) t op =
      .ok ((vals.zip bvals).map fun e => passes bins t.cut op e.1 e.2) := by
  unfold evaluateBinnedCutByIndex
  simp only [Bool.not_true, Bool.false_eq_true, if_false]
  rw [List.zip_map_right]
  rw [mapM_ok _ (fun e : FV ℝ × (ℤ × Bool) => if e.2.2 then
    (match t.cut[e.2.1.toNat]? with | some x => op e.1 x | none => false) else false)]
  · rw [List.map_map]
    congr 1
    apply List.map_congr_left
    rintro ⟨v, b⟩ -
    simp only [Function.comp, Prod.map, id]
    rw [Bool.eq_iff_iff, passes_iff]
    rcases bin_cases h hl b with hb | ⟨i, hb⟩ | hb
    · rw [binIdx_underflow h hl b hb]
      simp only [Bool.false_eq_true, if_false, false_iff]
      rintro ⟨i, x, hi, -⟩
      have := (binIdx_inBin h b i).mpr hi
      rw [binIdx_underflow h hl b hb] at this
      simp at this
    · rw [(binIdx_inBin h b i).mpr hb]
      simp only [if_true, Int.toNat_natCast]
      constructor
      · intro ho
        split at ho
        · rename_i x hx; exact ⟨i, x, hb, hx, ho⟩
        · simp at ho
      · rintro ⟨k, x, hk, hx, ho⟩
        rw [inBin_unique h hb hk, hx]; exact ho
    · rw [binIdx_overflow h hl b hb]
      simp only [Bool.false_eq_true, if_false, false_iff]
      rintro ⟨i, x, hi, -⟩
      have := (binIdx_inBin h b i).mpr hi
      rw [binIdx_overflow h hl b hb] at this
      simp at this
  · rintro ⟨v, x⟩ he
    rw [List.mem_map] at he
    obtain ⟨⟨v', b⟩, -, heq⟩ := he
    simp only [Prod.map, id, Prod.mk.injEq] at heq
    obtain ⟨rfl, rfl⟩ := heq
    unfold evalOne
    rcases bin_cases h hl b with hb | ⟨i, hb⟩ | hb
    · rw [binIdx_underflow h hl b hb]; simp
    · rw [(binIdx_inBin h b i).mpr hb]
      obtain ⟨hi, -⟩ := hb
      have hi' : i < t.cut.length := by omega
      simp [npIndex, hi']
    · rw [binIdx_overflow h hl b hb]; simp

theorem eval_mask {bins : List (FV ℝ)} (h : Increasing bins) (hl : 2 ≤ bins.length) (t : CutTable ℝ (FV ℝ))
    (hlow : t.low = bins.dropLast) (hhigh : t.high = bins.tail)
    (hc : t.cut.length = bins.length - 1) (op : FV ℝ → FV ℝ → Bool) (vals bvals : List (FV ℝ)) :
    evaluateBinnedCut true vals bvals t op = .ok ((vals.zip bvals).map fun e => passes bins t.cut op e.1 e.2) := by
  have hne : bins ≠ [] := by intro h0; rw [h0] at hl; simp at hl
  have hlast : t.high.getLast? = some (bins.getLast hne) := by
    rw [hhigh, List.getLast?_tail, if_neg (by omega), List.getLast?_eq_getLast_of_ne_nil hne]
  unfold evaluateBinnedCut
  simp only [hlast, Bool.not_true, Bool.false_eq_true, if_false, hlow, List.dropLast_append_getLast hne]
  rw [calculateBinIndices_increasing h bvals rfl]
  exact byIndex_mask h (by omega) t hc op vals bvals

theorem select_map {α : Type} (rows : List α) (p : α → Bool) : select rows (rows.map p) = rows.filter p := by
  unfold select
  induction rows with
  | nil => rfl
  | cons a l ih =>
    simp only [List.map_cons, List.zip_cons_cons, List.filter_cons]
    cases hp : p a
    · simpa using ih
    · simp [← ih]

theorem andMask_map {α : Type} (rows : List α) (p q : α → Bool) :
    andMask (rows.map p) (rows.map q) = rows.map fun e => p e && q e := by
  unfold andMask
  rw [List.zipWith_map]
  induction rows with
  | nil => rfl
  | cons a l ih => simp

theorem zip_map_map {α : Type} (rows : List α) (f g : α → FV ℝ) (k : FV ℝ × FV ℝ → Bool) :
    ((rows.map f).zip (rows.map g)).map k = rows.map fun e => k (f e, g e) := by
  rw [List.zip_map', List.map_map]; rfl

theorem cutTable_shape {C : Type} {pct : List (FV ℝ) → Except Err C} {clip : C → C} {fill : C} {minEvents : ℤ}
    {evs : List (FV ℝ × FV ℝ)} {bins : List (FV ℝ)} {t : CutTable ℝ C}
    (h : cutTable pct clip fill minEvents evs bins = .ok t) :
    t.low = bins.dropLast ∧ t.high = bins.tail ∧ t.center = binCenter bins ∧ t.cut.length = bins.length - 1 := by
  unfold cutTable at h
  split at h
  · exact absurd h (by simp)
  simp only [] at h
  split at h
  · exact absurd h (by simp)
  have : ∀ (l : List ℕ) (t0 t : CutTable ℝ C) (byBin : List (ℕ × FV ℝ)),
      (t0.low = bins.dropLast ∧ t0.high = bins.tail ∧ t0.center = binCenter bins ∧ t0.cut.length = bins.length - 1) →
      l.foldlM (cutStep pct clip fill minEvents byBin) t0 = .ok t →
      t.low = bins.dropLast ∧ t.high = bins.tail ∧ t.center = binCenter bins ∧ t.cut.length = bins.length - 1 := by
    intro l
    induction l with
    | nil => intro t0 t bb h0 h1; cases h1; exact h0
    | cons k l ih =>
      intro t0 t bb h0 h1
      rw [List.foldlM_cons] at h1
      cases hs : cutStep pct clip fill minEvents bb t0 k with
      | error e => rw [hs] at h1; exact absurd h1 (by simp [bind, Except.bind])
      | ok t1 =>
        rw [hs] at h1
        refine ih t1 t bb ?_ h1
        unfold cutStep at hs
        simp only [] at hs
        split at hs
        · cases hs; simpa using h0
        · split at hs
          · cases hs; simpa using h0
          · exact absurd hs (by simp)
  exact this _ _ t _ ⟨rfl, rfl, rfl, by simp⟩ h

theorem middle_lt {a b c d : FV ℝ} (ha : a ≠ .nan ∧ a ≠ .ninf) (hb : b ≠ .nan ∧ b ≠ .ninf) (h1 : FV.lt a c = true) (h2 : FV.lt b d = true) :
    FV.lt (middle a b) (middle c d) = true := by
  cases a <;> cases b <;> cases c <;> cases d <;> simp_all [middle, FV.lt]
  linarith

theorem mid_increasing {E : List (FV ℝ)} (hE : Np.Increasing1 E) : Np.Increasing1 (binCenter E) := by
  have hget : ∀ i (h : i < (binCenter E).length), ∃ h' : i + 1 < E.length, (binCenter E)[i] = middle E[i] E[i + 1] := by
    intro i h
    have h' : i + 1 < E.length := by rw [length_binCenter] at h; omega
    refine ⟨h', ?_⟩
    have := center_getElem E i h'
    rw [List.getElem?_eq_getElem h] at this
    exact Option.some.inj this
  refine ⟨?_, ?_⟩
  · intro x hx
    obtain ⟨i, hi, rfl⟩ := List.getElem_of_mem hx
    obtain ⟨h', e⟩ := hget i hi
    rw [e]
    have h1 := hE.1 E[i] (List.getElem_mem _)
    have h2 := hE.1 E[i + 1] (List.getElem_mem _)
    generalize E[i] = a at h1 ⊢
    generalize E[i + 1] = b at h2 ⊢
    cases a <;> cases b <;> simp_all [middle]
  · rw [List.pairwise_iff_getElem]
    intro i j hi hj hij
    obtain ⟨hi', ei⟩ := hget i hi
    obtain ⟨hj', ej⟩ := hget j hj
    rw [ei, ej]
    exact middle_lt (hE.1 _ (List.getElem_mem _)) (hE.1 _ (List.getElem_mem _))
      ((List.pairwise_iff_getElem.mp hE.2) i j (by omega) (by omega) hij)
      ((List.pairwise_iff_getElem.mp hE.2) (i + 1) (j + 1) (by omega) (by omega) (by omega))

/-- the theta cut used for the background estimate of bin `i` is the cut of bin `i` -/
theorem interp_center {E : List (FV ℝ)} (hE : Np.Increasing1 E) (cut : List (FV ℝ)) (hc : cut.length = E.length - 1) (i : ℕ)
    (v : FV ℝ) (hv : cut[i]? = some v) : Np.interp ((binCenter E).zip cut) (mid E i) = v := by
  have : i < E.length - 1 := by rw [← hc]; exact (List.getElem?_eq_some_iff.mp hv).1
  exact Np.interp_node_fv _ cut (mid_increasing hE) (by rw [length_binCenter, hc]) i _ v (center_mid E i this) hv

/-- a mask computed by `evaluate_binned_cut` is a function of value and bin value -/
theorem mask_fun {vals : List Ev} {f : Ev → FV ℝ} {t : CutTable ℝ (FV ℝ)} {op : FV ℝ → FV ℝ → Bool} {mask : List Bool}
    (h : evaluateBinnedCut true (vals.map f) (vals.map Ev.energy) t op = .ok mask) :
    ∃ M : FV ℝ → FV ℝ → Bool, mask = vals.map fun e => M (f e) e.energy := by
  unfold evaluateBinnedCut at h
  simp only [Bool.not_true, Bool.false_eq_true, if_false] at h
  split at h
  · exact absurd h (by simp)
  rename_i hi _
  split at h
  · exact absurd h (by simp)
  rename_i idx hidx
  unfold calculateBinIndices at hidx
  simp only [Bool.not_false, Bool.false_and, Bool.false_eq_true, if_false] at hidx
  split at hidx
  · exact absurd hidx (by simp)
  cases hidx
  unfold evaluateBinnedCutByIndex at h
  simp only [Bool.not_true, Bool.false_eq_true, if_false] at h
  obtain ⟨h1, h2⟩ := mapM_ok_iff _ _ _ h
  simp only [List.length_zip, List.length_map, min_self] at h1
  refine ⟨fun v b => match evalOne t.cut op (v, match Np.digitize (t.low ++ [hi]) b with
    | .ok c => binIndexOf (t.low ++ [hi]).length c
    | .error _ => (UNDERFLOW_INDEX, false)) with | .ok x => x | .error _ => false, ?_⟩
  apply List.ext_getElem
  · simp [h1]
  · intro k hk1 hk2
    simp only [List.length_map] at hk2
    have := h2 k _ _ (List.getElem?_eq_getElem (by simp [hk2])) (List.getElem?_eq_getElem hk1)
    simp only [List.getElem_zip, List.getElem_map] at this
    rw [List.getElem_map]
    beta_reduce
    split
    · rename_i x hx
      exact (Except.ok.inj (hx.symm.trans this)).symm
    · rename_i x hx
      exact absurd (hx.symm.trans this) (by simp)

section
variable {c : Ctx} {E : List (FV ℝ)}

/-- sums of a bin only depend on the selection of the events in that bin -/
theorem sigSum_congr (p q : Ev → Bool) (i : ℕ)
    (h : ∀ e ∈ c.signal.rows, InHistBin E i e.energy → p e = q e) :
    sigSum c E (c.signal.rows.map p) i = sigSum c E (c.signal.rows.map q) i := by
  unfold sigSum
  rw [select_map, select_map, List.filter_filter, List.filter_filter]
  congr 2
  apply List.filter_congr
  intro e he
  rw [Bool.eq_iff_iff, Bool.and_eq_true, Bool.and_eq_true, dec_iff]
  constructor
  · rintro ⟨h1, h2⟩; exact ⟨h1, by rw [← h e he h1]; exact h2⟩
  · rintro ⟨h1, h2⟩; exact ⟨h1, by rw [h e he h1]; exact h2⟩

theorem bgSum_congr (p q : Ev → Bool) (i : ℕ)
    (h : ∀ e ∈ c.background.rows, InHistBin E i e.energy → p e = q e) :
    bgSum c E (c.background.rows.map p) i = bgSum c E (c.background.rows.map q) i := by
  unfold bgSum
  rw [select_map, select_map, List.filter_filter, List.filter_filter]
  congr 2
  apply List.filter_congr
  intro e he
  rw [Bool.eq_iff_iff]
  constructor
  · intro hh
    obtain ⟨h1, h2⟩ := Bool.and_eq_true_iff.mp hh
    exact Bool.and_eq_true_iff.mpr ⟨h1, by rw [← h e he (dec_iff.mp h1).2]; exact h2⟩
  · intro hh
    obtain ⟨h1, h2⟩ := Bool.and_eq_true_iff.mp hh
    exact Bool.and_eq_true_iff.mpr ⟨h1, by rw [h e he (dec_iff.mp h1).2]; exact h2⟩

/-- in a histogram bin only the cut of that bin matters -/
theorem passes_local {bins cut cut' : List (FV ℝ)} (h : Increasing bins) {op : FV ℝ → FV ℝ → Bool} {v b : FV ℝ} {i : ℕ}
    (hb : InHistBin bins i b) (hc : cut[i]? = cut'[i]?) : passes bins cut op v b = passes bins cut' op v b := by
  rw [Bool.eq_iff_iff, passes_iff, passes_iff]
  have key : ∀ k, InBin bins k b → k = i := fun k hk => inHistBin_unique h hk.inHistBin hb
  constructor
  · rintro ⟨k, x, hk, hx, ho⟩
    have := key k hk; subst this
    exact ⟨k, x, hk, by rw [← hc]; exact hx, ho⟩
  · rintro ⟨k, x, hk, hx, ho⟩
    have := key k hk; subst this
    exact ⟨k, x, hk, by rw [hc]; exact hx, ho⟩

/-- in a histogram bin, a global multiplicity cut together with a binned cut is the binned multiplicity cut with it -/
theorem passes_global {bins cut gh : List (FV ℝ)} (h : Increasing bins) {op : FV ℝ → FV ℝ → Bool} {v b w m : FV ℝ} {i : ℕ}
    (hb : InHistBin bins i b) (hc : cut[i]? = some m) :
    (passes bins cut FV.ge w b && passes bins gh op v b) = (passes bins gh op v b && FV.ge w m) := by
  rw [Bool.eq_iff_iff, Bool.and_eq_true, Bool.and_eq_true, passes_iff, passes_iff]
  have key : ∀ k, InBin bins k b → k = i := fun k hk => inHistBin_unique h hk.inHistBin hb
  constructor
  · rintro ⟨⟨k, x, hk, hx, ho⟩, h2⟩
    have := key k hk; subst this
    rw [hc] at hx; cases hx
    exact ⟨h2, ho⟩
  · rintro ⟨⟨k, x, hk, hx, ho⟩, h2⟩
    have := key k hk; subst this
    exact ⟨⟨k, m, hk, hc, h2⟩, k, x, hk, hx, ho⟩

/-! ## C25 -/

/-- the scan in terms of pure masks -/
theorem combo_masks (hbins : c.bins = E) (hE : Np.Increasing1 E) (hl : 2 ≤ E.length) {g : Grid} {mi ti gi : ℕ} {m : FV ℝ}
    {theta gh : List (FV ℝ)} {T : Table (FV ℝ)} (h : Combo c g mi ti gi m theta gh T) :
    theta.length = E.length - 1 ∧ gh.length = E.length - 1 ∧ ∃ t : CutTable ℝ (FV ℝ), t.center = binCenter E ∧
      t.cut = theta ∧ sensitivityOf c
        (c.signal.rows.map fun e => (passes E gh FV.ge e.gh e.energy && passes E theta FV.le e.theta e.energy)
          && FV.ge e.mult m)
        (c.background.rows.map fun e => passes E gh FV.ge e.gh e.energy && FV.ge e.mult m) t = .ok T := by
  obtain ⟨fill, sIdx, bIdx, ghT, thT, h1, h2, h3, h4, h5, h6, rfl, rfl, h9⟩ := h
  have hinc : Increasing E := hE.increasing
  rw [hbins, calculateBinIndices_increasing hinc _ rfl] at h2 h3
  cases h2; cases h3
  unfold ghGrid percentileCuts at h5
  unfold thetaGrid percentileCuts at h6
  obtain ⟨g1, g2, g3, g4⟩ := cutTable_shape h5
  obtain ⟨t1, t2, t3, t4⟩ := cutTable_shape h6
  rw [hbins] at g4 t4
  have hgl : (cutColumn ghT gi).cut.length = E.length - 1 := by simp [cutColumn, g4]
  have htl : (cutColumn thT ti).cut.length = E.length - 1 := by simp [cutColumn, t4]
  refine ⟨htl, hgl, cutColumn thT ti, by rw [← hbins]; exact t3, rfl, ?_⟩
  unfold scanOne at h9
  rw [byIndex_mask hinc (by omega) _ (by rw [htl]), byIndex_mask hinc (by omega) _ (by rw [hgl]),
    byIndex_mask hinc (by omega) _ (by rw [hgl])] at h9
  simp only [zip_map_map, andMask_map] at h9
  exact h9

/-- **C25** Whenever `optimize_cuts` returns, applying the returned per-bin multiplicity, theta and gh cut tables to the same
events and recomputing histograms, background and sensitivity succeeds and gives in every energy bin exactly the relative
sensitivity that `optimize_cuts` reported, although the tables mix cuts of different scanned combinations. -/
theorem C25_optimize_cuts_reapply (hbins : c.bins = E) (hE : Np.Increasing1 E) (hs : NoWeighted c.signal)
    (hb : NoWeighted c.background) (g : Grid) (out : Best) (hok : optimizeCuts c g = .ok out) :
    ∃ T, reapply c out.mult out.theta out.gh = .ok T ∧
      ∀ i < E.length - 1, ∃ r, Cell out.sens "relative_sensitivity" i r ∧ Cell T "relative_sensitivity" i r := by
  obtain ⟨hcombos, ⟨m0, theta0, gh0, T0, h00, -⟩, -, ⟨l1, l2, l3⟩, hspec⟩ := optimizeCuts_spec hbins hE hs hb g out hok
  have hinc : Increasing E := hE.increasing
  have hl : 2 ≤ E.length := by
    obtain ⟨f, si, bi, gT, tT, -, -, -, -, -, -, -, -, h⟩ := h00
    obtain ⟨sel, bsel, h⟩ := scanOne_is h
    exact ((sensitivityOf_spec hbins hE hs hb sel bsel _).1 _ h).2.2.1
  set P : Ev → Bool := fun e => passes E out.mult FV.ge e.mult e.energy &&
    (passes E out.theta FV.le e.theta e.energy && passes E out.gh FV.ge e.gh e.energy) with hP
  set Q : Ev → Bool := fun e => passes E out.mult FV.ge e.mult e.energy &&
    passes E out.gh FV.ge e.gh e.energy with hQ
  have hun : reapply c out.mult out.theta out.gh =
      sensitivityOf c (c.signal.rows.map P) (c.background.rows.map Q) (asTable E out.theta) := by
    unfold reapply
    rw [hbins]
    have ev : ∀ cut : List (FV ℝ), cut.length = E.length - 1 → ∀ (op : FV ℝ → FV ℝ → Bool) (vals bvals : List (FV ℝ)),
        evaluateBinnedCut true vals bvals (asTable E cut) op =
          .ok ((vals.zip bvals).map fun e => passes E cut op e.1 e.2) := by
      intro cut hcut op vals bvals
      exact eval_mask hinc (by simpa using hl) (asTable E cut) rfl rfl (by simp [asTable, hcut]) op vals bvals
    simp only [ev _ l1, ev _ l2, ev _ l3, zip_map_map, andMask_map, bind, Except.bind]
    rfl
  -- bin by bin the sums are those of the chosen combination
  have hbin : ∀ i < E.length - 1, ∃ r, Cell out.sens "relative_sensitivity" i r ∧
      relativeSensitivity1 c.brentq c.sig
        (.fin (sigSum c E (c.signal.rows.map P) i) + c.alpha * bgEst c E (c.background.rows.map Q)
          ((asTable E out.theta).center.zip (asTable E out.theta).cut) i (mid E i))
        (bgEst c E (c.background.rows.map Q)
          ((asTable E out.theta).center.zip (asTable E out.theta).cut) i (mid E i)) c.alpha c.th = .ok r := by
    intro i hi
    obtain ⟨rels, -, hcells, k, mi, ti, gi, m, theta, gh, T, r, tv, gv, te, ge, -, q2, q3, q4, q5, q6, q7, q8, q9, q10, -, -, -,
      -, -⟩ := hspec i hi
    obtain ⟨lt, lg, t, ht1, ht2, hsens⟩ := combo_masks hbins hE hl q4
    obtain ⟨-, -, -, rel, hrel, hlen, hrels⟩ := (sensitivityOf_spec hbins hE hs hb _ _ t).1 T hsens
    -- the reported value is the cell of T
    have hcT : Cell T "relative_sensitivity" i r := by
      obtain ⟨m', theta', gh', T', r', hc', hr', hcell⟩ := hcells k mi ti gi q2
      rw [q3] at hr'
      have hTT : T' = T := by
        obtain ⟨f, si, bi, gT, tT, a1, a2, a3, a4, a5, a6, a7, a8, a9⟩ := q4
        obtain ⟨f', si', bi', gT', tT', b1, b2, b3, b4, b5, b6, b7, b8, b9⟩ := hc'
        rw [a1] at b1; cases b1
        rw [a2] at b2; cases b2
        rw [a3] at b3; cases b3
        rw [a4] at b4; cases b4
        rw [a5] at b5; cases b5
        rw [a6] at b6; cases b6
        rw [a9] at b9; cases b9
        rfl
      rw [hTT, ← Option.some.inj hr'] at hcell
      exact hcell
    obtain ⟨col, hcol, hcoli⟩ := hcT
    rw [hrel] at hcol
    cases hcol
    have hr1 := hrels i r hcoli
    refine ⟨r, q5, ?_⟩
    have eS : sigSum c E (c.signal.rows.map P) i = sigSum c E (c.signal.rows.map fun e =>
        (passes E gh FV.ge e.gh e.energy && passes E theta FV.le e.theta e.energy) && FV.ge e.mult m) i := by
      apply sigSum_congr
      intro e _ he
      rw [hP]
      simp only []
      rw [Bool.and_comm (passes E out.theta FV.le e.theta e.energy), ← Bool.and_assoc, passes_global hinc he q6,
        passes_local hinc he (show out.gh[i]? = gh[i]? by rw [q9, q10]),
        passes_local hinc he (show out.theta[i]? = theta[i]? by rw [q7, q8]), Bool.and_right_comm]
    have eB : bgSum c E (c.background.rows.map Q) i = bgSum c E (c.background.rows.map fun e =>
        passes E gh FV.ge e.gh e.energy && FV.ge e.mult m) i := by
      apply bgSum_congr
      intro e _ he
      rw [hQ]
      simp only []
      rw [passes_global hinc he q6, passes_local hinc he (show out.gh[i]? = gh[i]? by rw [q9, q10])]
    have eE : bgEst c E (c.background.rows.map Q)
          ((asTable E out.theta).center.zip (asTable E out.theta).cut) i (mid E i) =
        bgEst c E (c.background.rows.map fun e => passes E gh FV.ge e.gh e.energy && FV.ge e.mult m)
          (t.center.zip t.cut) i (mid E i) := by
      unfold bgEst
      rw [eB, ht1, ht2, interp_center hE theta lt i tv q7]
      have : Np.interp ((asTable E out.theta).center.zip (asTable E out.theta).cut) (mid E i) = tv :=
        interp_center hE out.theta l2 i tv q8
      rw [this]
    rw [eS, eE]
    exact hr1
  obtain ⟨hs1, hs2⟩ := sensitivityOf_spec hbins hE hs hb (c.signal.rows.map P) (c.background.rows.map Q)
    (asTable E out.theta)
  obtain ⟨T, hT⟩ := hs2 hl (fun i hi => by obtain ⟨r, -, h⟩ := hbin i hi; exact ⟨r, h⟩)
  refine ⟨T, by rw [hun, hT], ?_⟩
  intro i hi
  obtain ⟨-, -, -, rel, hrel, hlen, hrels⟩ := hs1 T hT
  obtain ⟨r, hr, hr2⟩ := hbin i hi
  have hil : i < rel.length := by omega
  have := hrels i rel[i] (List.getElem?_eq_getElem hil)
  rw [hr2] at this
  refine ⟨r, hr, rel, hrel, ?_⟩
  rw [List.getElem?_eq_getElem hil, Except.ok.inj this]

/-- **C25** (for `optimize_gh_cut`) The same for the returned gh cut table with the theta cut table that was passed in. -/
theorem C25_optimize_gh_cut_reapply (hbins : c.bins = E) (hE : Np.Increasing1 E) (hs : NoWeighted c.signal)
    (hb : NoWeighted c.background) (ghEff : List ℝ) (thetaCuts : CutTable ℝ (FV ℝ)) (op : FV ℝ → FV ℝ → Bool) (out : BestGh)
    (hok : optimizeGhCut c ghEff thetaCuts op = .ok out) :
    ∃ T, reapplyGh c thetaCuts op out.gh = .ok T ∧
      ∀ i < E.length - 1, ∃ r, Cell out.sens "relative_sensitivity" i r ∧ Cell T "relative_sensitivity" i r := by
  obtain ⟨cuts, tables, hscan, -, hpos, hgl, hspec⟩ := optimizeGhCut_spec hbins hE hs hb ghEff thetaCuts op out hok
  have hinc : Increasing E := hE.increasing
  obtain ⟨mask, setup, grid, g1, g2, g3, -, g5⟩ := hscan 0 hpos
  have hl : 2 ≤ E.length := by
    obtain ⟨sel, bsel, h⟩ := scanGh_is g5
    exact ((sensitivityOf_spec hbins hE hs hb sel bsel _).1 _ h).2.2.1
  obtain ⟨M, hM⟩ := mask_fun g1
  have hgrid : grid.low = E.dropLast ∧ grid.high = E.tail ∧ grid.cut.length = E.length - 1 := by
    unfold percentileCuts at g3
    obtain ⟨a, b, -, d⟩ := cutTable_shape g3
    rw [hbins] at a b d
    exact ⟨a, b, by simpa using d⟩
  have hcl : ∀ j, (cutColumn grid j).cut.length = E.length - 1 := fun j => by simp [cutColumn, hgrid.2.2]
  have hs2 : ∀ j < ghEff.length, cuts j = (cutColumn grid j).cut ∧ sensitivityOf c
      (c.signal.rows.map fun e => passes E (cutColumn grid j).cut op e.gh e.energy && M e.theta e.energy)
      (c.background.rows.map fun e => passes E (cutColumn grid j).cut op e.gh e.energy) thetaCuts = .ok (tables j) := by
    intro j hj
    obtain ⟨mask', setup', grid', a1, a2, a3, a4, a5⟩ := hscan j hj
    rw [g1] at a1; cases a1
    rw [g2] at a2; cases a2
    rw [g3] at a3; cases a3
    refine ⟨a4, ?_⟩
    unfold scanGh at a5
    rw [eval_mask hinc (by simpa using hl) _ hgrid.1 hgrid.2.1 (by rw [hcl]),
      eval_mask hinc (by simpa using hl) _ hgrid.1 hgrid.2.1 (by rw [hcl]), hM] at a5
    simp only [zip_map_map, andMask_map] at a5
    exact a5
  set P : Ev → Bool := fun e => M e.theta e.energy && passes E out.gh op e.gh e.energy with hP
  set Q : Ev → Bool := fun e => passes E out.gh op e.gh e.energy with hQ
  have hun : reapplyGh c thetaCuts op out.gh = sensitivityOf c (c.signal.rows.map P) (c.background.rows.map Q) thetaCuts := by
    unfold reapplyGh
    rw [hbins]
    have ev : ∀ (vals bvals : List (FV ℝ)),
        evaluateBinnedCut true vals bvals (asTable E out.gh) op =
          .ok ((vals.zip bvals).map fun e => passes E out.gh op e.1 e.2) := by
      intro vals bvals
      exact eval_mask hinc (by simpa using hl) (asTable E out.gh) rfl rfl (by simp [asTable, hgl]) op vals bvals
    simp only [g1, hM, ev, zip_map_map, andMask_map, bind, Except.bind]
    rfl
  have hbin : ∀ i < E.length - 1, ∃ r, Cell out.sens "relative_sensitivity" i r ∧
      relativeSensitivity1 c.brentq c.sig
        (.fin (sigSum c E (c.signal.rows.map P) i) + c.alpha * bgEst c E (c.background.rows.map Q)
          (thetaCuts.center.zip thetaCuts.cut) i (mid E i))
        (bgEst c E (c.background.rows.map Q) (thetaCuts.center.zip thetaCuts.cut) i (mid E i)) c.alpha c.th = .ok r := by
    intro i hi
    obtain ⟨rels, hrl, hcells, j, r, v, e, hbest, q2, q3, q4, q5, -, -, -⟩ := hspec i hi
    have hj : j < ghEff.length := by rw [← hrl]; exact hbest.inRange
    obtain ⟨e1, e2⟩ := hs2 j hj
    obtain ⟨-, -, -, rel, hrel, hlen, hrels⟩ := (sensitivityOf_spec hbins hE hs hb _ _ thetaCuts).1 _ e2
    obtain ⟨r', hr', col, hcol, hcoli⟩ := hcells j hj
    rw [q2] at hr'; cases hr'
    rw [hrel] at hcol; cases hcol
    have hr1 := hrels i r hcoli
    rw [e1] at q4
    refine ⟨r, q3, ?_⟩
    have eS : sigSum c E (c.signal.rows.map P) i = sigSum c E (c.signal.rows.map fun e =>
        passes E (cutColumn grid j).cut op e.gh e.energy && M e.theta e.energy) i := by
      apply sigSum_congr
      intro e _ he
      rw [hP]
      simp only []
      rw [passes_local hinc he (show out.gh[i]? = (cutColumn grid j).cut[i]? by rw [q4, q5]), Bool.and_comm]
    have eB : bgSum c E (c.background.rows.map Q) i = bgSum c E (c.background.rows.map fun e =>
        passes E (cutColumn grid j).cut op e.gh e.energy) i := by
      apply bgSum_congr
      intro e _ he
      rw [hQ]
      simp only []
      rw [passes_local hinc he (show out.gh[i]? = (cutColumn grid j).cut[i]? by rw [q4, q5])]
    have eE : bgEst c E (c.background.rows.map Q) (thetaCuts.center.zip thetaCuts.cut) i (mid E i) =
        bgEst c E (c.background.rows.map fun e => passes E (cutColumn grid j).cut op e.gh e.energy)
          (thetaCuts.center.zip thetaCuts.cut) i (mid E i) := by
      unfold bgEst
      rw [eB]
    rw [eS, eE]
    exact hr1
  obtain ⟨hs1, hs2⟩ := sensitivityOf_spec hbins hE hs hb (c.signal.rows.map P) (c.background.rows.map Q) thetaCuts
  obtain ⟨T, hT⟩ := hs2 hl (fun i hi => by obtain ⟨r, -, h⟩ := hbin i hi; exact ⟨r, h⟩)
  refine ⟨T, by rw [hun, hT], ?_⟩
  intro i hi
  obtain ⟨-, -, -, rel, hrel, hlen, hrels⟩ := hs1 T hT
  obtain ⟨r, hr, hr2⟩ := hbin i hi
  have hil : i < rel.length := by omega
  have := hrels i rel[i] (List.getElem?_eq_getElem hil)
  rw [hr2] at this
  refine ⟨r, hr, rel, hrel, ?_⟩
  rw [List.getElem?_eq_getElem hil, Except.ok.inj this]
end

end Pyirf.CutOpt
