import Verif.Interpolation.EstimatorProps
import Mathlib.Tactic.FinCases

/-!
# C62, C63, C99: effective areas
-/
set_option linter.unusedSectionVars false
set_option linter.unusedSimpArgs false

namespace Pyirf.Interpolation
open Pyirf Pyirf.Np

/-- What is assumed about `scipy.interpolate.griddata` (linear) on this grid: a result is a combination of the values at grid points with nonnegative weights of
sum one, and at a grid point only that point counts. -/
structure IsGriddata (griddata : Grid → List (FV ℝ) → Option (List (ℕ × ℝ))) (grid : Grid) : Prop where
  convex : ∀ t l, griddata grid t = some l → (∀ e ∈ l, 0 ≤ e.2 ∧ e.1 < grid.length) ∧ (l.map Prod.snd).sum = 1
  node : ∀ p ∈ grid, ∃ l, griddata grid (p.map .fin) = some l ∧ ∀ e ∈ l, e.2 ≠ 0 → grid[e.1]? = some p

theorem floorArea_eq_max (amin a : ℝ) : floorArea amin a = max amin a := by
  unfold floorArea
  split
  · next h => exact (max_eq_left h.le).symm
  · next h => exact (max_eq_right (not_lt.mp h)).symm

/-- Construction sorts points and areas together. -/
theorem area_built {C : Type*} {argsort : List ℝ → List ℕ} (ha : IsArgsort argsort) {delaunay : Grid → Except Err (List (FV ℝ) → Bool)} {g : GridArg} {areas : List (C → ℝ)} {amin : ℝ}
    {mk : Grid → List (C → FV ℝ) → Except Err (Callable (C → FV ℝ))} {extrap : Option (ClsArg (C → FV ℝ) (C → FV ℝ))} {e : Estimator (C → FV ℝ)}
    (h : effectiveAreaInit argsort delaunay g areas amin (.cls mk) extrap = .ok e) :
    ∃ pts, GoodGrid g e.dim pts ∧ areas.length = pts.length ∧ ∃ l' : List (List ℝ × (C → ℝ)), l'.Perm (pts.zip areas) ∧ e.grid = l'.map Prod.fst ∧
      mk e.grid (l'.map fun p c => flog (floorArea amin (p.2 c))) = .ok e.interpolator := by
  unfold effectiveAreaInit at h
  obtain ⟨d, pts, hull, rows, pts', rows', i, x, h1, h2, h3, h4, h5, h6, rfl⟩ := (C60_parametrized _ _ _ _ _ _ _).mp h
  cases h3
  have hlen : areas.length = pts.length := by simpa using h4
  refine ⟨pts, h1, hlen, ?_⟩
  obtain ⟨⟨mk', hm, hi⟩, _⟩ := h6
  cases hm
  unfold OrderedGrid sortRows at h5
  have hf : (pts.zip areas).map Prod.fst = pts := List.map_fst_zip (by omega)
  have hs : (pts.zip areas).map Prod.snd = areas := List.map_snd_zip (by omega)
  by_cases hd : d = 1
  · rw [if_pos hd] at h5
    obtain ⟨e1, e2⟩ := Prod.mk.inj h5
    obtain ⟨p1, _⟩ := ha (pts.map coord)
    refine ⟨takeRows (pts.zip areas) (argsort (pts.map coord)), takeRows_perm ?_, ?_, ?_⟩
    · have : (pts.zip areas).length = (pts.map coord).length := by simp [hlen]
      rw [this]; exact p1
    · show pts' = _
      rw [takeRows_map, hf, e1]
    · have e3 : (takeRows (pts.zip areas) (argsort (pts.map coord))).map (fun p c => flog (floorArea amin (p.2 c))) = rows' := by
        rw [← e2, takeRows_map]
        congr 1
        conv_rhs => rw [← hs]
        rw [List.map_map]; rfl
      rw [e3]; exact hi
  · rw [if_neg hd] at h5
    obtain ⟨e1, e2⟩ := Prod.mk.inj h5
    refine ⟨pts.zip areas, List.Perm.refl _, ?_, ?_⟩
    · show pts' = _
      rw [hf, e1]
    · have e3 : (pts.zip areas).map (fun p c => flog (floorArea amin (p.2 c))) = rows' := by
        rw [← e2]
        conv_rhs => rw [← hs]
        rw [List.map_map]; rfl
      rw [e3]; exact hi

theorem flog_floor {amin : ℝ} (h : 0 < amin) (a : ℝ) : flog (floorArea amin a) = .fin (Real.log (max amin a)) := by
  rw [floorArea_eq_max]
  unfold flog
  rw [if_pos (lt_of_lt_of_le h (le_max_left _ _))]

/-- A combination with nonnegative weights of sum one lies between two of the values. -/
theorem convex_between {ι : Type*} {l : List (ι × ℝ)} (h0 : ∀ e ∈ l, 0 ≤ e.2) (h1 : (l.map Prod.snd).sum = 1) (f : ι → ℝ) :
    (∃ e ∈ l, f e.1 ≤ (l.map fun e => e.2 * f e.1).sum) ∧ ∃ e ∈ l, (l.map fun e => e.2 * f e.1).sum ≤ f e.1 := by
  constructor
  · by_contra hc
    push Not at hc
    set s := (l.map fun e => e.2 * f e.1).sum with hs
    have hle : (l.map fun e => e.2 * s).sum ≤ s := by rw [List.sum_map_mul_right, h1, one_mul]
    have hlt : (l.map fun e => e.2 * s).sum < (l.map fun e => e.2 * f e.1).sum := by
      refine List.sum_lt_sum _ _ (fun e he => mul_le_mul_of_nonneg_left (hc e he).le (h0 e he)) ?_
      by_contra hn
      push Not at hn
      have hz : ∀ e ∈ l, e.2 = 0 := fun e he => by
        have := hn e he
        have h' := hc e he
        nlinarith [h0 e he]
      have : (l.map Prod.snd).sum = 0 := by
        rw [List.map_congr_left (g := fun _ => (0 : ℝ)) hz]; simp
      rw [this] at h1; norm_num at h1
    have heq : (l.map fun e => e.2 * s).sum = s := by rw [List.sum_map_mul_right, h1, one_mul]
    linarith
  · by_contra hc
    push Not at hc
    set s := (l.map fun e => e.2 * f e.1).sum with hs
    have heq : (l.map fun e => e.2 * s).sum = s := by rw [List.sum_map_mul_right, h1, one_mul]
    have hlt : (l.map fun e => e.2 * f e.1).sum < (l.map fun e => e.2 * s).sum := by
      refine List.sum_lt_sum _ _ (fun e he => mul_le_mul_of_nonneg_left (hc e he).le (h0 e he)) ?_
      by_contra hn
      push Not at hn
      have hz : ∀ e ∈ l, e.2 = 0 := fun e he => by
        have := hn e he
        have h' := hc e he
        nlinarith [h0 e he]
      have : (l.map Prod.snd).sum = 0 := by
        rw [List.map_congr_left (g := fun _ => (0 : ℝ)) hz]; simp
      rw [this] at h1; norm_num at h1
    linarith

/-- **C62** Whatever interpolates or extrapolates: every estimated area is 0 or at least the minimum (or the interpolator gave NaN or an infinite number). -/
theorem C62_range {C : Type*} (e : Estimator (C → FV ℝ)) (amin : ℝ) (target : TargetArg) (r : C → FV ℝ) (h : (effectiveAreaCall e amin target).result = .ok r) (c : C) :
    r c = .fin 0 ∨ (∃ a, amin ≤ a ∧ r c = .fin a) ∨ r c = .nan ∨ r c = .pinf := by
  unfold effectiveAreaCall at h
  simp only at h
  split at h
  · cases h
  · next x hx =>
    cases h
    simp only [areaFromLog]
    split
    · exact Or.inl rfl
    · next hl =>
      cases hf : fexp (x c) with
      | nan => simp
      | pinf => simp
      | ninf => rw [hf] at hl; simp [FV.lt] at hl
      | fin a =>
        rw [hf] at hl
        simp only [FV.lt_fin, decide_eq_true_eq, not_lt] at hl
        exact Or.inr (Or.inl ⟨a, hl, rfl⟩)

/-- **C62** Exceptions and warnings are those of the general estimator. -/
theorem C62_errors {C : Type*} (e : Estimator (C → FV ℝ)) (amin : ℝ) (target : TargetArg) :
    (effectiveAreaCall e amin target).warned = (e.call target).warned ∧
    ∀ err, (effectiveAreaCall e amin target).result = .error err ↔ (e.call target).result = .error err := by
  refine ⟨rfl, fun err => ?_⟩
  unfold effectiveAreaCall
  cases h : (e.call target).result with
  | error x => simp [h]
  | ok r => simp [h]

/-- **C62** Inside the grid the default interpolator gives the weighted geometric mean of the templates (raised to the minimum), which lies between the smallest and
the largest of them in every cell. -/
theorem C62_convex {C : Type*} (argsort : List ℝ → List ℕ) (ha : IsArgsort argsort) (delaunay : Grid → Except Err (List (FV ℝ) → Bool)) (g : GridArg) (areas : List (C → ℝ)) (amin : ℝ)
    (hmin : 0 < amin) (griddata : Grid → List (FV ℝ) → Option (List (ℕ × ℝ))) (extrap : Option (ClsArg (C → FV ℝ) (C → FV ℝ))) (e : Estimator (C → FV ℝ))
    (h : effectiveAreaInit argsort delaunay g areas amin (gridDataInterpolator griddata) extrap = .ok e) (hgd : IsGriddata griddata e.grid)
    (target : TargetArg) (t : List (FV ℝ)) (ht : e.call target = ⟨e.interpolator t, false⟩) (l : List (ℕ × ℝ)) (hl : griddata e.grid t = some l) :
    ∃ r, effectiveAreaCall e amin target = ⟨.ok r, false⟩ ∧ ∀ c, ∃ v, r c = .fin v ∧ (∃ a ∈ areas, max amin (a c) ≤ v) ∧ (∃ a ∈ areas, v ≤ max amin (a c)) ∧
      ∃ l' : List (List ℝ × (C → ℝ)), e.grid = l'.map Prod.fst ∧ (∀ p ∈ l', p.2 ∈ areas) ∧
        Real.log v = (l.map fun w => w.2 * Real.log (max amin (((l'.map Prod.snd).getD w.1 fun _ => 0) c))).sum := by
  obtain ⟨pts, hg, hlen, l', hp, hgrid, hmk⟩ := area_built ha h
  have hmem : ∀ p ∈ l', p.2 ∈ areas := by
    intro p hp'
    have := hp.mem_iff.mp hp'
    exact (List.of_mem_zip this).2
  have hint := Except.ok.inj hmk
  obtain ⟨c1, c2⟩ := hgd.convex t l hl
  have hlen' : e.grid.length = l'.length := by rw [hgrid]; simp
  have hget : ∀ w ∈ l, ∀ c, ((l'.map fun p c => flog (floorArea amin (p.2 c))).getD w.1 fun _ => FV.nan) c = .fin (Real.log (max amin (((l'.map Prod.snd).getD w.1 fun _ => 0) c))) := by
    intro w hw c
    have hw' : w.1 < l'.length := by rw [← hlen']; exact (c1 w hw).2
    rw [List.getD_eq_getElem?_getD, List.getD_eq_getElem?_getD, List.getElem?_map, List.getElem?_map, List.getElem?_eq_getElem hw']
    simp only [Option.map_some, Option.getD_some]
    exact flog_floor hmin _
  have hval : ∀ c, ∃ x, e.interpolator t = .ok x ∧ x c = .fin (l.map fun w => w.2 * Real.log (max amin (((l'.map Prod.snd).getD w.1 fun _ => 0) c))).sum := by
    intro c
    refine ⟨_, by rw [← hint], ?_⟩
    simp only [hl]
    rw [← fsum_fin, List.map_map]
    congr 1
    apply List.map_congr_left
    intro w hw
    rw [hget w hw c]
    rfl
  obtain ⟨x, hx⟩ : ∃ x, e.interpolator t = .ok x := ⟨_, by rw [← hint]⟩
  refine ⟨fun c => areaFromLog amin (x c), ?_, fun c => ?_⟩
  · unfold effectiveAreaCall
    simp only [ht, hx]
  obtain ⟨x', hx', hxc⟩ := hval c
  rw [hx] at hx'
  cases hx'
  obtain ⟨⟨w, hw, hlo⟩, ⟨w', hw', hhi⟩⟩ := convex_between (fun e he => (c1 e he).1) c2 (fun k => Real.log (max amin (((l'.map Prod.snd).getD k fun _ => 0) c)))
  have hpos : ∀ a : ℝ, 0 < max amin a := fun a => lt_of_lt_of_le hmin (le_max_left _ _)
  set s := (l.map fun w => w.2 * Real.log (max amin (((l'.map Prod.snd).getD w.1 fun _ => 0) c))).sum with hs
  have hlo' : max amin (((l'.map Prod.snd).getD w.1 fun _ => 0) c) ≤ Real.exp s := by
    rw [← Real.log_le_iff_le_exp (hpos _)]; exact hlo
  have hhi' : Real.exp s ≤ max amin (((l'.map Prod.snd).getD w'.1 fun _ => 0) c) := by
    rw [← Real.le_log_iff_exp_le (hpos _)]; exact hhi
  have hin : ∀ w ∈ l, ((l'.map Prod.snd).getD w.1 fun _ => 0) ∈ areas := by
    intro w hw
    have hw' : w.1 < l'.length := by rw [← hlen']; exact (c1 w hw).2
    rw [List.getD_eq_getElem?_getD, List.getElem?_map, List.getElem?_eq_getElem hw']
    exact hmem _ (List.getElem_mem hw')
  refine ⟨Real.exp s, ?_, ⟨_, hin w hw, hlo'⟩, ⟨_, hin w' hw', hhi'⟩, l', hgrid, hmem, by rw [Real.log_exp]⟩
  simp only [areaFromLog, hxc, fexp, FV.lt_fin, decide_eq_true_eq]
  rw [if_neg (not_lt.mpr ((le_max_left _ _).trans hlo'))]

/-- **C62** At a grid point the template of that point is returned, raised to the minimum. -/
theorem C62_grid_point {C : Type*} (argsort : List ℝ → List ℕ) (ha : IsArgsort argsort) (delaunay : Grid → Except Err (List (FV ℝ) → Bool)) (g : GridArg) (pts : Grid)
    (areas : List (C → ℝ)) (amin : ℝ) (hmin : 0 < amin) (griddata : Grid → List (FV ℝ) → Option (List (ℕ × ℝ))) (extrap : Option (ClsArg (C → FV ℝ) (C → FV ℝ)))
    (e : Estimator (C → FV ℝ)) (h : effectiveAreaInit argsort delaunay g areas amin (gridDataInterpolator griddata) extrap = .ok e) (hg : GoodGrid g e.dim pts) (hnd : pts.Nodup)
    (hgd : IsGriddata griddata e.grid) (p : List ℝ) (a : C → ℝ) (hpa : (p, a) ∈ pts.zip areas) (target : TargetArg) (ht : e.call target = ⟨e.interpolator (p.map .fin), false⟩) :
    ∃ r, effectiveAreaCall e amin target = ⟨.ok r, false⟩ ∧ ∀ c, r c = .fin (max amin (a c)) := by
  obtain ⟨pts', hg', hlen, l', hp, hgrid, hmk⟩ := area_built ha h
  have hpts : pts' = pts := by
    obtain ⟨_, h1⟩ := hg
    obtain ⟨_, h2⟩ := hg'
    rcases h1 with ⟨xs, hx, _, rfl⟩ | h1
    · rcases h2 with ⟨ys, hy, _, rfl⟩ | h2
      · rw [hx] at hy; cases hy; rfl
      · rw [hx] at h2; cases h2
    · rcases h2 with ⟨ys, hy, _, rfl⟩ | h2
      · rw [h1] at hy; cases hy
      · rw [h1] at h2; cases h2; rfl
  subst hpts
  have hf : (pts'.zip areas).map Prod.fst = pts' := List.map_fst_zip (by omega)
  have hmem : p ∈ e.grid := by
    rw [hgrid, (hp.map Prod.fst).mem_iff, hf]
    exact (List.of_mem_zip hpa).1
  obtain ⟨l, hl, hnode⟩ := hgd.node p hmem
  obtain ⟨c1, c2⟩ := hgd.convex _ l hl
  obtain ⟨r, hr, hv⟩ := C62_convex argsort ha delaunay g areas amin hmin griddata extrap e h hgd target _ ht l hl
  refine ⟨r, hr, fun c => ?_⟩
  have hint := Except.ok.inj hmk
  have hlen' : e.grid.length = l'.length := by rw [hgrid]; simp
  have hnd' : (l'.map Prod.fst).Nodup := by rw [(hp.map Prod.fst).nodup_iff, hf]; exact hnd
  have hget : ∀ w ∈ l, w.2 ≠ 0 → ((l'.map fun p c => flog (floorArea amin (p.2 c))).getD w.1 fun _ => FV.nan) c = .fin (Real.log (max amin (a c))) := by
    intro w hw hw0
    have hw' : w.1 < l'.length := by rw [← hlen']; exact (c1 w hw).2
    have hn := hnode w hw hw0
    rw [hgrid, List.getElem?_map, List.getElem?_eq_getElem hw', Option.map_some] at hn
    have hfst : (l'[w.1]).1 = p := Option.some.inj hn
    have hpl : (p, a) ∈ l' := hp.mem_iff.mpr hpa
    have heq : l'[w.1] = (p, a) := List.inj_on_of_nodup_map hnd' (List.getElem_mem hw') hpl hfst
    rw [List.getD_eq_getElem?_getD, List.getElem?_map, List.getElem?_eq_getElem hw', Option.map_some, Option.getD_some, heq]
    exact flog_floor hmin _
  have hz : ∀ w ∈ l, FV.fin w.2 * ((l'.map fun p c => flog (floorArea amin (p.2 c))).getD w.1 fun _ => FV.nan) c = .fin (w.2 * Real.log (max amin (a c))) := by
    intro w hw
    by_cases hw0 : w.2 = 0
    · have hw' : w.1 < l'.length := by rw [← hlen']; exact (c1 w hw).2
      rw [List.getD_eq_getElem?_getD, List.getElem?_map, List.getElem?_eq_getElem hw', Option.map_some, Option.getD_some, flog_floor hmin, hw0]
      simp
    · rw [hget w hw hw0]; rfl
  have hx : ∃ x, e.interpolator (p.map .fin) = .ok x ∧ x c = .fin (Real.log (max amin (a c))) := by
    refine ⟨_, by rw [← hint], ?_⟩
    simp only [hl]
    rw [List.map_congr_left hz]
    have : (l.map fun w => FV.fin (w.2 * Real.log (max amin (a c)))) = (l.map fun w => w.2 * Real.log (max amin (a c))).map .fin := by rw [List.map_map]; rfl
    rw [this, fsum_fin, List.sum_map_mul_right, c2, one_mul]
  obtain ⟨x, hx1, hx2⟩ := hx
  unfold effectiveAreaCall at hr
  simp only [ht, hx1] at hr
  have hrr : (fun c => areaFromLog amin (x c)) = r := by
    have := congrArg Outcome.result hr
    exact Except.ok.inj this
  rw [← hrr]
  simp only [areaFromLog, hx2, fexp, FV.lt_fin, decide_eq_true_eq]
  rw [Real.exp_log (lt_of_lt_of_le hmin (le_max_left _ _)), if_neg (not_lt.mpr (le_max_left _ _))]

/-! ## C99: values at or below the minimum -/

/-- **C99** (deviation) In every cell where no template exceeds the minimum, the estimate inside the grid is the minimum itself and not 0. -/
theorem C99_minimum_kept {C : Type*} (argsort : List ℝ → List ℕ) (ha : IsArgsort argsort) (delaunay : Grid → Except Err (List (FV ℝ) → Bool)) (g : GridArg) (areas : List (C → ℝ)) (amin : ℝ)
    (hmin : 0 < amin) (griddata : Grid → List (FV ℝ) → Option (List (ℕ × ℝ))) (extrap : Option (ClsArg (C → FV ℝ) (C → FV ℝ))) (e : Estimator (C → FV ℝ))
    (h : effectiveAreaInit argsort delaunay g areas amin (gridDataInterpolator griddata) extrap = .ok e) (hgd : IsGriddata griddata e.grid)
    (target : TargetArg) (t : List (FV ℝ)) (ht : e.call target = ⟨e.interpolator t, false⟩) (l : List (ℕ × ℝ)) (hl : griddata e.grid t = some l) (c : C)
    (hc : ∀ a ∈ areas, a c ≤ amin) : ∃ r, (effectiveAreaCall e amin target).result = .ok r ∧ r c = .fin amin ∧ r c ≠ .fin 0 := by
  obtain ⟨r, hr, hv⟩ := C62_convex argsort ha delaunay g areas amin hmin griddata extrap e h hgd target t ht l hl
  obtain ⟨v, h1, ⟨a, ha', h2⟩, ⟨b, hb, h3⟩, _⟩ := hv c
  rw [max_eq_left (hc a ha')] at h2
  rw [max_eq_left (hc b hb)] at h3
  have : v = amin := le_antisymm h3 h2
  subst this
  refine ⟨r, by rw [hr], h1, by rw [h1]; intro hh; cases hh; exact lt_irrefl _ hmin⟩

/-- **C99** Estimates strictly below the minimum become 0, the others are kept. -/
theorem C99_minimum {C : Type*} (e : Estimator (C → FV ℝ)) (amin : ℝ) (target : TargetArg) (x : C → FV ℝ) (h : (e.call target).result = .ok x) :
    ∃ r, (effectiveAreaCall e amin target).result = .ok r ∧ ∀ c y, x c = .fin y → (Real.exp y < amin → r c = .fin 0) ∧ (amin ≤ Real.exp y → r c = .fin (Real.exp y)) := by
  refine ⟨fun c => areaFromLog amin (x c), by unfold effectiveAreaCall; simp only [h], fun c y hy => ⟨fun hlt => ?_, fun hle => ?_⟩⟩
  · simp only [areaFromLog, hy, fexp, FV.lt_fin, decide_eq_true_eq]; rw [if_pos hlt]
  · simp only [areaFromLog, hy, fexp, FV.lt_fin, decide_eq_true_eq]; rw [if_neg (not_lt.mpr hle)]

/-! ## C63: the caller's array -/

/-- **C63** The array can change: with areas in m2, construction overwrites values below the minimum in the caller's array. -/
theorem C63_input_can_change : ∃ (areas : List (Unit → ℝ)) (amin : ℝ), callerAreasAfter 1 areas amin ≠ areas := by
  refine ⟨[fun _ => 0], 1, ?_⟩
  unfold callerAreasAfter
  rw [if_pos rfl]
  intro h
  have := congrFun (List.cons.inj h).1 ()
  norm_num [floorArea] at this

/-- **C63** The caller's array is unchanged exactly if it is in another unit or contains no value below the minimum. -/
theorem C63_input_unchanged_iff {C : Type*} (scale : ℝ) (areas : List (C → ℝ)) (amin : ℝ) :
    callerAreasAfter scale areas amin = areas ↔ scale ≠ 1 ∨ ∀ a ∈ areas, ∀ c, amin ≤ a c := by
  unfold callerAreasAfter
  by_cases hs : scale = 1
  · rw [if_pos hs]
    simp only [hs, ne_eq, not_true_eq_false, false_or]
    have hid : areas.map (fun a c => floorArea amin (a c)) = areas ↔ ∀ a ∈ areas, (fun c => floorArea amin (a c)) = a := by
      conv_lhs => rhs; rw [← List.map_id areas]
      rw [List.map_inj_left]; rfl
    rw [hid]
    refine forall₂_congr fun a _ => ?_
    constructor
    · intro h c
      have := congrFun h c
      rw [floorArea_eq_max] at this
      rw [← this]; exact le_max_left _ _
    · intro h; funext c; rw [floorArea_eq_max]; exact max_eq_right (h c)
  · rw [if_neg hs]; simp [hs]

/-- **C63** What is written: in m2 every value becomes the larger of itself and the minimum; in any other unit nothing changes. -/
theorem C63_input_values {C : Type*} (scale : ℝ) (areas : List (C → ℝ)) (amin : ℝ) :
    List.Forall₂ (fun after before => ∀ c, after c = if scale = 1 then max amin (before c) else before c) (callerAreasAfter scale areas amin) areas := by
  unfold callerAreasAfter
  by_cases hs : scale = 1
  · simp only [if_pos hs]
    rw [List.forall₂_map_left_iff]
    exact List.forall₂_same.mpr fun a _ c => floorArea_eq_max _ _
  · simp only [if_neg hs]
    exact List.forall₂_same.mpr fun a _ c => rfl

/-! ## The hypotheses can be met -/

theorem griddataLine_isGriddata {grid : Grid} (h2 : 2 ≤ grid.length) (hlen : ∀ p ∈ grid, p.length = 1) (hs : (grid.map coord).Pairwise (· < ·)) : IsGriddata griddataLine grid := by
  have hmono : StrictMono (fun i : Fin (grid.length - 2 + 2) => coord (grid.getD i.val [])) := by
    intro i j hij
    have hi : i.val < grid.length := by omega
    have hj : j.val < grid.length := by omega
    have := List.pairwise_iff_getElem.mp hs i.val j.val (by simpa using hi) (by simpa using hj) hij
    simpa [List.getD_eq_getElem?_getD, List.getElem?_eq_getElem hi, List.getElem?_eq_getElem hj] using this
  constructor
  · intro t l hl
    unfold griddataLine at hl
    split at hl
    · rw [dif_pos h2, Option.map_eq_some_iff] at hl
      obtain ⟨l0, h0, rfl⟩ := hl
      obtain ⟨c1, c2⟩ := (griddata1D_convex hmono _).1 l0 h0
      refine ⟨?_, ?_⟩
      · intro e he
        obtain ⟨e0, he0, rfl⟩ := List.mem_map.mp he
        exact ⟨c1 e0 he0, by have := e0.1.isLt; simp only; omega⟩
      · rw [List.map_map]; exact c2
    · cases hl
  · intro p hp
    obtain ⟨i, hi, rfl⟩ := List.getElem_of_mem hp
    obtain ⟨x, hx⟩ := List.length_eq_one_iff.mp (hlen _ hp)
    obtain ⟨l, hl, hl1, _, _⟩ := griddata1D_node hmono ⟨i, by omega⟩
    refine ⟨l.map fun e => (e.1.val, e.2), ?_, ?_⟩
    · unfold griddataLine
      have hxi : coord (grid.getD i []) = x := by simp [List.getD_eq_getElem?_getD, List.getElem?_eq_getElem hi, hx, coord]
      rw [hx]
      simp only [List.map_cons, List.map_nil]
      rw [dif_pos h2]
      simp only at hl
      rw [hxi] at hl
      rw [hl]
      rfl
    · intro e he h0
      obtain ⟨e0, he0, rfl⟩ := List.mem_map.mp he
      have := hl1 e0 he0 h0
      simp only [this]
      exact List.getElem?_eq_getElem hi

/-- an estimator for two points (given in the wrong order) with areas 4 and 100 in one cell and 0 in the other: all hypotheses of C62 and C99 are met at the target 1/2 -/
example : ∃ e : Estimator (Bool → FV ℝ), effectiveAreaInit stableArgsort (fun _ => .error .valueError) (.oneD [1, 0]) [fun b => if b then 100 else 0, fun b => if b then 4 else 0] 1
      (gridDataInterpolator griddataLine) none = .ok e ∧ IsGriddata griddataLine e.grid ∧ e.call (.oneD [.fin (1 / 2)]) = ⟨e.interpolator [.fin (1 / 2)], false⟩ ∧
      ∃ l, griddataLine e.grid [.fin (1 / 2)] = some l := by
  have hg : GoodGrid (.oneD [1, 0]) 1 [[1], [0]] := ⟨by simp, Or.inl ⟨[1, 0], rfl, rfl, rfl⟩⟩
  set rows : List (Bool → FV ℝ) := [fun b => if b then 100 else 0, fun b => if b then 4 else 0].map fun a c => flog (floorArea 1 (a c)) with hrows
  obtain ⟨l', hp, hs, he⟩ := C61_sorted stableArgsort stableArgsort_isArgsort [((1 : ℝ), rows[0]), (0, rows[1])]
  have hgrid : l'.map Prod.fst = [0, 1] := by
    have h1 : (l'.map Prod.fst).Perm [0, 1] := (hp.map Prod.fst).trans (List.Perm.swap _ _ _)
    exact h1.eq_of_pairwise (fun a b _ _ h1 h2 => le_antisymm h1 h2) hs (by norm_num)
  refine ⟨⟨1, (l'.map Prod.fst).map fun x => [x], fun _ => false, fun t => .ok fun c => match griddataLine ((l'.map Prod.fst).map fun x => [x]) t with
    | none => .nan
    | some l => fsum (l.map fun e => .fin e.2 * ((l'.map Prod.snd).getD e.1 fun _ => .nan) c), none⟩, ?_, ?_, ?_, ?_⟩
  · unfold effectiveAreaInit
    rw [C60_parametrized]
    exact ⟨1, _, _, _, _, _, _, _, hg, by simp [Triangulated], rfl, rfl, he, ⟨⟨_, rfl, rfl⟩, Or.inl ⟨rfl, rfl⟩⟩, rfl⟩
  · show IsGriddata griddataLine ((l'.map Prod.fst).map fun x => [x])
    rw [hgrid]
    exact griddataLine_isGriddata (by simp) (by simp) (by simp [coord])
  · refine (C60_dispatch_1d _ rfl (by simp [hgrid]) _ (.fin (1 / 2)) rfl).1 ?_
    simp only [hgrid]
    exact ⟨⟨[0], by simp, by simp [coord]⟩, ⟨[1], by simp, by simp [coord]; norm_num⟩⟩
  · simp only [hgrid]
    have : ¬ griddata1D (N := 0) (fun i => coord (([0, 1] : List ℝ).map (fun x => [x]) |>.getD i.val [])) (1 / 2) = none := by
      rw [(griddata1D_convex ?_ _).2.1]
      · simp [coord]; norm_num [Fin.last]
      · rw [Fin.strictMono_iff_lt_succ]; intro i; fin_cases i; simp [coord]
    obtain ⟨l, hl⟩ := Option.ne_none_iff_exists'.mp this
    refine ⟨l.map fun e => (e.1.val, e.2), ?_⟩
    unfold griddataLine
    simp only
    rw [dif_pos (show 2 ≤ (List.map (fun x : ℝ => [x]) [0, 1]).length by simp)]
    exact congrArg (Option.map fun l : List (Fin (0 + 2) × ℝ) => l.map fun e => (e.1.val, e.2)) hl

end Pyirf.Interpolation
