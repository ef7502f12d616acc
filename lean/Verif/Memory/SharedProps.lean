import Verif.Memory.RadMaxProps

/-!
# C128: several EffectiveAreaEstimator objects from one array of effective areas
-/
set_option linter.unusedSectionVars false
set_option linter.unusedSimpArgs false

namespace Pyirf.Memory
open Pyirf Pyirf.Np Pyirf.Interpolation
variable {τ : Type}

/-! ## Specification -/

/-- The sorting of one-dimensional input. -/
def inOrder (argsort : ND V → List ℕ) (oneDim : Bool) (g a : ND V) : ND V := if oneDim then a.takeRows (argsort g) else a

/-- The estimate of an EffectiveAreaEstimator from the grid points `g` and the effective areas `a` in m2: the log of the areas, with the minimal area in place of smaller ones, is inter- or extrapolated. -/
noncomputable def areaEstimate (argsort : ND V → List ℕ) (oneDim : Bool) (inGrid : ND V → τ → Except Err Bool) (interp : ParamCls τ) (extrap : Option (ParamCls τ)) (amin : ℝ) (g a : ND V) (t : τ) :
    Except Err (ND V) :=
  let logs : ND V := ⟨a.shape, fun idx => logV ((onEntries (floorV amin) a).get idx)⟩
  match estimate inGrid interp extrap (inOrder argsort oneDim g g) (inOrder argsort oneDim g logs) t with
  | .error e => .error e
  | .ok r => .ok ⟨r.shape, fun idx => areaFromLog amin (r.get idx)⟩

/-! ## Proofs -/

theorem read_parametrizedNew (argsort : ND V → List ℕ) (oneDim : Bool) (inGrid : ND V → τ → Except Err Bool) (interp : ParamCls τ) (extrap : Option (ParamCls τ)) (m : Mem V) (grid params : Ref)
    (hg : grid.buf < m.next) (hp : params.buf < m.next) (t : τ) :
    let c := parametrizedNew argsort oneDim inGrid interp extrap m grid params
    value c.2.call c.1 t = estimate inGrid interp extrap (inOrder argsort oneDim (m.read grid) (m.read grid)) (inOrder argsort oneDim (m.read grid) (m.read params)) t := by
  intro c
  cases oneDim with
  | true =>
    obtain ⟨h1, h2, h3, h4, h5, h6⟩ := sortInput_one argsort m grid params
    refine (value_est inGrid interp extrap (sortInput argsort true m grid params).2.1 (sortInput argsort true m grid params).2.2 (sortInput argsort true m grid params).1 t
      (by rw [h1, h2]; omega) (by rw [h1, h3]; omega)).trans ?_
    rw [h5, h6]
    rfl
  | false => exact value_est inGrid interp extrap grid params m t hg hp

theorem parametrizedNew_keep (argsort : ND V → List ℕ) (oneDim : Bool) (inGrid : ND V → τ → Except Err Bool) (interp : ParamCls τ) (extrap : Option (ParamCls τ)) (m : Mem V) (grid params : Ref) :
    m.next ≤ (parametrizedNew argsort oneDim inGrid interp extrap m grid params).1.next ∧
    ∀ b < m.next, (parametrizedNew argsort oneDim inGrid interp extrap m grid params).1.data b = m.data b := by
  cases oneDim with
  | true =>
    obtain ⟨h1, h2, h3, h4, h5, h6⟩ := sortInput_one argsort m grid params
    exact ⟨by show m.next ≤ (sortInput argsort true m grid params).1.next; omega, h4⟩
  | false => exact ⟨le_refl _, fun _ _ => rfl⟩

/-- **C128** What a new EffectiveAreaEstimator estimates, for areas in m2. -/
theorem C128_new (argsort : ND V → List ℕ) (oneDim : Bool) (inGrid : ND V → τ → Except Err Bool) (interp : ParamCls τ) (extrap : Option (ParamCls τ)) (amin : ℝ) (m : Mem V) (grid areas : Ref)
    (hg : grid.buf < m.next) (hga : grid.buf ≠ areas.buf) (hi : Function.Injective areas.pos) (t : τ) :
    let c := effectiveAreaNew argsort oneDim inGrid interp extrap 1 amin m grid areas
    value (effectiveAreaCallM c.2 amin) c.1 t = areaEstimate argsort oneDim inGrid interp extrap amin (m.read grid) (m.read areas) t := by
  intro c
  have ht : toSquareMetres 1 m areas = (m, areas) := by unfold toSquareMetres; rw [if_pos rfl]
  have hr := read_modify_inj m areas hi (floorV amin)
  set l := (m.modify areas (floorV amin)).alloc ⟨areas.shape, fun idx => logV (((m.modify areas (floorV amin)).read areas).get idx)⟩ with hl
  have hc : c = parametrizedNew argsort oneDim inGrid interp extrap l.1 grid l.2 := by
    show effectiveAreaNew argsort oneDim inGrid interp extrap 1 amin m grid areas = _
    unfold effectiveAreaNew
    simp only [ht]
    rw [← hl]
  have hln : l.1.next = m.next + 1 := rfl
  have hlb : l.2.buf = m.next := rfl
  have hlr : l.1.read l.2 = ⟨areas.shape, fun idx => logV ((onEntries (floorV amin) (m.read areas)).get idx)⟩ := by
    rw [hl, Mem.read_alloc_new, hr]
  have hlg : l.1.read grid = m.read grid := by
    rw [hl, Mem.read_alloc_old _ _ (by exact hg), Mem.read_modify_other _ _ _ hga]
  rw [effectiveAreaCallM_value, hc, read_parametrizedNew argsort oneDim inGrid interp extrap l.1 grid l.2 (by omega) (by omega) t, hlr, hlg]
  rfl

/-- **C128** What a new EffectiveAreaEstimator estimates, for areas in another unit (one unit is `scale` m2): the same as for the areas converted to m2. -/
theorem C128_new_other_units (argsort : ND V → List ℕ) (oneDim : Bool) (inGrid : ND V → τ → Except Err Bool) (interp : ParamCls τ) (extrap : Option (ParamCls τ)) (scale amin : ℝ) (hs : scale ≠ 1)
    (m : Mem V) (grid areas : Ref) (hg : grid.buf < m.next) (t : τ) :
    let c := effectiveAreaNew argsort oneDim inGrid interp extrap scale amin m grid areas
    value (effectiveAreaCallM c.2 amin) c.1 t =
      areaEstimate argsort oneDim inGrid interp extrap amin (m.read grid) ⟨areas.shape, fun idx => .fin scale * (m.read areas).get idx⟩ t := by
  intro c
  set a : ND V := ⟨areas.shape, fun idx => .fin scale * (m.read areas).get idx⟩ with ha
  have ht : toSquareMetres scale m areas = m.alloc a := by unfold toSquareMetres; rw [if_neg hs]
  have hr : (((m.alloc a).1.modify (m.alloc a).2 (floorV amin)).read (m.alloc a).2) = onEntries (floorV amin) a := by
    have := read_modify_inj (m.alloc a).1 (m.alloc a).2 Function.injective_id (floorV amin)
    rw [Mem.read_alloc_new] at this
    exact this
  set l := ((m.alloc a).1.modify (m.alloc a).2 (floorV amin)).alloc
    ⟨areas.shape, fun idx => logV ((((m.alloc a).1.modify (m.alloc a).2 (floorV amin)).read (m.alloc a).2).get idx)⟩ with hl
  have hc : c = parametrizedNew argsort oneDim inGrid interp extrap l.1 grid l.2 := by
    show effectiveAreaNew argsort oneDim inGrid interp extrap scale amin m grid areas = _
    unfold effectiveAreaNew
    simp only [ht]
    rw [← hl]
  have hln : l.1.next = m.next + 2 := rfl
  have hlb : l.2.buf = m.next + 1 := rfl
  have hlr : l.1.read l.2 = ⟨areas.shape, fun idx => logV ((onEntries (floorV amin) a).get idx)⟩ := by
    rw [hl, Mem.read_alloc_new, hr]
  have hlg : l.1.read grid = m.read grid := by
    rw [hl, Mem.read_alloc_old _ _ (by show grid.buf < m.next + 1; omega), Mem.read_modify_other _ _ _ (by show grid.buf ≠ m.next; omega), Mem.read_alloc_old _ _ hg]
  rw [effectiveAreaCallM_value, hc, read_parametrizedNew argsort oneDim inGrid interp extrap l.1 grid l.2 (by omega) (by omega) t, hlr, hlg]
  rfl

/-- **C128** The construction writes the minimal area into the caller's array, in place of smaller areas. -/
theorem C128_caller_array (argsort : ND V → List ℕ) (oneDim : Bool) (inGrid : ND V → τ → Except Err Bool) (interp : ParamCls τ) (extrap : Option (ParamCls τ)) (amin : ℝ) (m : Mem V) (grid areas : Ref)
    (ha : areas.buf < m.next) (hi : Function.Injective areas.pos) :
    (effectiveAreaNew argsort oneDim inGrid interp extrap 1 amin m grid areas).1.read areas = onEntries (floorV amin) (m.read areas) := by
  have ht : toSquareMetres 1 m areas = (m, areas) := by unfold toSquareMetres; rw [if_pos rfl]
  unfold effectiveAreaNew
  simp only [ht]
  rw [← read_modify_inj m areas hi (floorV amin)]
  refine (read_congr ((parametrizedNew_keep _ _ _ _ _ _ _ _).2 _ ?_)).trans (Mem.read_alloc_old _ _ (by exact ha))
  show areas.buf < m.next + 1
  omega

/-- **C128** In other units (any scale to m2 but 1) the construction changes no array of the caller. -/
theorem C128_other_units (argsort : ND V → List ℕ) (oneDim : Bool) (inGrid : ND V → τ → Except Err Bool) (interp : ParamCls τ) (extrap : Option (ParamCls τ)) (scale amin : ℝ) (hs : scale ≠ 1) (m : Mem V)
    (grid areas r : Ref) (hr : r.buf < m.next) :
    (effectiveAreaNew argsort oneDim inGrid interp extrap scale amin m grid areas).1.read r = m.read r := by
  unfold effectiveAreaNew toSquareMetres
  simp only [if_neg hs]
  refine (read_congr ((parametrizedNew_keep _ _ _ _ _ _ _ _).2 _ ?_)).trans ((Mem.read_alloc_old _ _ ?_).trans ((Mem.read_modify_other _ _ _ ?_ _).trans (Mem.read_alloc_old _ _ hr)))
  · show r.buf < m.next + 1 + 1; omega
  · show r.buf < m.next + 1; omega
  · show r.buf ≠ m.next; omega

/-- **C128** A second estimator made from the same array (with the same or another grid and classes, and its own minimal area) works with the areas the first one has left. -/
theorem C128_second (argsort : ND V → List ℕ) (oneDim : Bool) (inGrid : ND V → τ → Except Err Bool) (interp : ParamCls τ) (extrap : Option (ParamCls τ)) (amin : ℝ) (m : Mem V) (grid areas : Ref)
    (σ : Type) (argsort' : ND V → List ℕ) (oneDim' : Bool) (inGrid' : ND V → σ → Except Err Bool) (interp' : ParamCls σ) (extrap' : Option (ParamCls σ)) (amin' : ℝ) (grid' : Ref)
    (ha : areas.buf < m.next) (hg : grid'.buf < m.next) (hga : grid'.buf ≠ areas.buf) (hi : Function.Injective areas.pos) (t : σ) :
    let first := effectiveAreaNew argsort oneDim inGrid interp extrap 1 amin m grid areas
    let c := effectiveAreaNew argsort' oneDim' inGrid' interp' extrap' 1 amin' first.1 grid' areas
    value (effectiveAreaCallM c.2 amin') c.1 t = areaEstimate argsort' oneDim' inGrid' interp' extrap' amin' (m.read grid') (onEntries (floorV amin) (m.read areas)) t := by
  intro first c
  have ht : toSquareMetres 1 m areas = (m, areas) := by unfold toSquareMetres; rw [if_pos rfl]
  have hn : m.next + 1 ≤ first.1.next ∧ first.1.read grid' = m.read grid' := by
    show m.next + 1 ≤ (effectiveAreaNew argsort oneDim inGrid interp extrap 1 amin m grid areas).1.next ∧ (effectiveAreaNew argsort oneDim inGrid interp extrap 1 amin m grid areas).1.read grid' = _
    unfold effectiveAreaNew
    simp only [ht]
    refine ⟨le_trans (le_refl (m.next + 1)) (parametrizedNew_keep argsort oneDim inGrid interp extrap
      ((m.modify areas (floorV amin)).alloc ⟨areas.shape, fun idx => logV (((m.modify areas (floorV amin)).read areas).get idx)⟩).1 _ _).1, ?_⟩
    refine (read_congr ((parametrizedNew_keep _ _ _ _ _ _ _ _).2 _ ?_)).trans ((Mem.read_alloc_old _ _ (by exact hg)).trans (Mem.read_modify_other _ _ _ hga _))
    show grid'.buf < m.next + 1
    omega
  have h := C128_new argsort' oneDim' inGrid' interp' extrap' amin' first.1 grid' areas (by omega) hga hi t
  have h2 : first.1.read areas = onEntries (floorV amin) (m.read areas) := C128_caller_array argsort oneDim inGrid interp extrap amin m grid areas ha hi
  rw [hn.2, h2] at h
  exact h

theorem onEntries_onEntries (f f' : V → V) (a : ND V) : onEntries f (onEntries f' a) = onEntries (fun x => f (f' x)) a := by
  unfold onEntries
  simp only [ND.mk.injEq, true_and]
  funext idx
  split <;> rfl

theorem onEntries_congr {f f' : V → V} {a : ND V} (h : ∀ idx, ND.Valid a.shape idx → f (a.get idx) = f' (a.get idx)) : onEntries f a = onEntries f' a := by
  unfold onEntries
  simp only [ND.mk.injEq, true_and]
  funext idx
  by_cases hv : ND.Valid a.shape idx
  · rw [if_pos hv, if_pos hv, h idx hv]
  · rw [if_neg hv, if_neg hv]

/-- One element after both: the larger of the two minimal areas counts. -/
theorem floor_floor (amin amin' : ℝ) (x : V) : floorV amin' (floorV amin x) = if FV.lt x (.fin amin) then .fin (max amin amin') else floorV amin' x := by
  unfold floorV
  by_cases h : FV.lt x (.fin amin) = true
  · rw [if_pos h, if_pos h, FV.lt_fin]
    by_cases h2 : amin < amin'
    · simp [h2, le_of_lt h2]
    · simp [h2, not_lt.1 h2]
  · rw [if_neg h, if_neg h]

/-- **C128** So the second estimator estimates the same as it would alone if its minimal area is at least that of the first one, or if no area is below the minimal area of the first one. -/
theorem C128_second_same (argsort : ND V → List ℕ) (oneDim : Bool) (inGrid : ND V → τ → Except Err Bool) (interp : ParamCls τ) (extrap : Option (ParamCls τ)) (amin : ℝ) (m : Mem V) (grid areas : Ref)
    (σ : Type) (argsort' : ND V → List ℕ) (oneDim' : Bool) (inGrid' : ND V → σ → Except Err Bool) (interp' : ParamCls σ) (extrap' : Option (ParamCls σ)) (amin' : ℝ) (grid' : Ref)
    (ha : areas.buf < m.next) (hg : grid'.buf < m.next) (hga : grid'.buf ≠ areas.buf) (hi : Function.Injective areas.pos) (t : σ)
    (h : amin ≤ amin' ∨ ∀ idx, ND.Valid areas.shape idx → FV.lt ((m.read areas).get idx) (.fin amin) = false) :
    let first := effectiveAreaNew argsort oneDim inGrid interp extrap 1 amin m grid areas
    let c := effectiveAreaNew argsort' oneDim' inGrid' interp' extrap' 1 amin' first.1 grid' areas
    let alone := effectiveAreaNew argsort' oneDim' inGrid' interp' extrap' 1 amin' m grid' areas
    value (effectiveAreaCallM c.2 amin') c.1 t = value (effectiveAreaCallM alone.2 amin') alone.1 t := by
  intro first c alone
  rw [C128_second argsort oneDim inGrid interp extrap amin m grid areas σ argsort' oneDim' inGrid' interp' extrap' amin' grid' ha hg hga hi t,
    C128_new argsort' oneDim' inGrid' interp' extrap' amin' m grid' areas hg hga hi t]
  have key : onEntries (floorV amin') (onEntries (floorV amin) (m.read areas)) = onEntries (floorV amin') (m.read areas) := by
    rw [onEntries_onEntries]
    apply onEntries_congr
    intro idx hv
    rw [floor_floor]
    by_cases hlt : FV.lt ((m.read areas).get idx) (.fin amin) = true
    · rw [if_pos hlt]
      rcases h with h | h
      · have h2 : FV.lt ((m.read areas).get idx) (.fin amin') = true := FV.lt_of_lt_of_le' hlt (by rw [FV.le_fin]; simpa using h)
        unfold floorV
        rw [if_pos h2, max_eq_right h]
      · rw [h idx hv] at hlt
        cases hlt
    · rw [if_neg hlt]
  unfold areaEstimate
  rw [key]
  rfl

theorem area_row (argsort : ND V → List ℕ) (inGrid : ND V → τ → Except Err Bool) (index : ND V → τ → Except Err ℕ) (extrap : Option (ParamCls τ)) (amin : ℝ) (g a : ND V) (t : τ)
    (h1 : inGrid g t = .ok true) {i : ℕ} (h2 : index g t = .ok i) {k : ℕ} {s : List ℕ} {n : ℕ} (hs : a.shape = n :: k :: s) (hi : i < n) :
    ∃ r, areaEstimate argsort false inGrid (.nearest index) extrap amin g a t = .ok r ∧ r.shape = k :: s ∧
      ∀ idx, ND.Valid (k :: s) idx → r.get idx = areaFromLog amin (logV (floorV amin (a.get (i :: idx)))) := by
  unfold areaEstimate estimate inOrder ParamCls.estimate
  simp only [Bool.false_eq_true, if_false, h1, h2]
  unfold ND.row
  simp only [hs, if_pos hi]
  refine ⟨_, rfl, rfl, ?_⟩
  intro idx hv
  unfold onEntries
  simp only
  rw [if_pos]
  rw [hs]
  exact List.Forall₂.cons hi hv

theorem areaFromLog_log (amin x : ℝ) (h : 0 < x) (h2 : amin ≤ x) : areaFromLog amin (logV (.fin x)) = .fin x := by
  unfold areaFromLog logV FV.log
  simp only [if_neg h.ne', if_neg (not_lt.2 h.le), fexp, Real.exp_log h, FV.lt_fin, decide_eq_true_eq]
  rw [if_neg (not_lt.2 h2)]

/-- **C128** Otherwise it can differ (deviation), e.g. with a nearest neighbor searcher, `t` inside the grid: where the area of the nearest grid point is below both minimal areas, the second estimator gives the first
one's minimal area, alone it would give its own smaller one. -/
theorem C128_second_differs (argsort : ND V → List ℕ) (oneDim : Bool) (inGrid : ND V → τ → Except Err Bool) (interp : ParamCls τ) (extrap : Option (ParamCls τ)) (amin : ℝ) (m : Mem V) (grid areas : Ref)
    (σ : Type) (argsort' : ND V → List ℕ) (inGrid' : ND V → σ → Except Err Bool) (index : ND V → σ → Except Err ℕ) (extrap' : Option (ParamCls σ)) (amin' : ℝ) (grid' : Ref)
    (ha : areas.buf < m.next) (hg : grid'.buf < m.next) (hga : grid'.buf ≠ areas.buf) (hi : Function.Injective areas.pos) (t : σ)
    (h1 : inGrid' (m.read grid') t = .ok true) (i : ℕ) (h2 : index (m.read grid') t = .ok i) (n k : ℕ) (s : List ℕ) (hs : areas.shape = n :: k :: s) (hin : i < n) (h0 : 0 < amin') (hlt : amin' < amin)
    (idx : List ℕ) (hv : ND.Valid (k :: s) idx) (hx : FV.lt ((m.read areas).get (i :: idx)) (.fin amin') = true) :
    let first := effectiveAreaNew argsort oneDim inGrid interp extrap 1 amin m grid areas
    let c := effectiveAreaNew argsort' false inGrid' (.nearest index) extrap' 1 amin' first.1 grid' areas
    let alone := effectiveAreaNew argsort' false inGrid' (.nearest index) extrap' 1 amin' m grid' areas
    ∃ a b, value (effectiveAreaCallM c.2 amin') c.1 t = .ok a ∧ value (effectiveAreaCallM alone.2 amin') alone.1 t = .ok b ∧ a.get idx = .fin amin ∧ b.get idx = .fin amin' := by
  intro first c alone
  have e1 := C128_second argsort oneDim inGrid interp extrap amin m grid areas σ argsort' false inGrid' (.nearest index) extrap' amin' grid' ha hg hga hi t
  have e2 := C128_new argsort' false inGrid' (.nearest index) extrap' amin' m grid' areas hg hga hi t
  obtain ⟨a, a1, a2, a3⟩ := area_row argsort' inGrid' index extrap' amin' (m.read grid') (onEntries (floorV amin) (m.read areas)) t h1 h2 (show _ = n :: k :: s from hs) hin
  obtain ⟨b, b1, b2, b3⟩ := area_row argsort' inGrid' index extrap' amin' (m.read grid') (m.read areas) t h1 h2 (show _ = n :: k :: s from hs) hin
  refine ⟨a, b, e1.trans a1, e2.trans b1, ?_, ?_⟩
  · rw [a3 idx hv]
    have hvv : ND.Valid (m.read areas).shape (i :: idx) := by
      show ND.Valid areas.shape (i :: idx)
      rw [hs]; exact List.Forall₂.cons hin hv
    have : (onEntries (floorV amin) (m.read areas)).get (i :: idx) = .fin amin := by
      unfold onEntries
      simp only
      rw [if_pos hvv]
      unfold floorV
      rw [if_pos (FV.lt_of_lt_of_le' hx (by rw [FV.le_fin]; simpa using le_of_lt hlt))]
    rw [this]
    have hf : floorV amin' (.fin amin) = .fin amin := by
      unfold floorV
      rw [if_neg]
      rw [FV.lt_fin]; simpa using le_of_lt hlt
    rw [hf, areaFromLog_log amin' amin (lt_trans h0 hlt) (le_of_lt hlt)]
  · rw [b3 idx hv]
    have hf : floorV amin' ((m.read areas).get (i :: idx)) = .fin amin' := by
      unfold floorV
      rw [if_pos hx]
    rw [hf, areaFromLog_log amin' amin' h0 (le_refl _)]

/-! ## The hypotheses can be met -/

/-- areas 10 and 11, first minimal area 30, second minimal area 20 -/
example : FV.lt ((exMem.read exParams).get [1, 0]) (.fin 20) = true ∧ exGrid.buf ≠ exParams.buf ∧ exParams.buf < exMem.next ∧ Function.Injective exParams.pos ∧ ND.Valid [1] [0] ∧
    exParams.shape = [2, 1] := by
  refine ⟨?_, by simp [exGrid, exParams], by simp [exMem, exParams], fun _ _ h => h, by unfold ND.Valid; simp, rfl⟩
  simp [exMem, exParams, Mem.read, FV.lt_fin]; norm_num

end Pyirf.Memory
