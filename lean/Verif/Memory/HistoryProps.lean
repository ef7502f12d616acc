import Verif.Memory.Lemmas

/-!
# C124: estimates do not depend on what the caller does after the construction
-/
set_option linter.unusedSectionVars false
set_option linter.unusedSimpArgs false

namespace Pyirf.Memory
open Pyirf Pyirf.Np Pyirf.Interpolation
variable {τ : Type}

/-! ## Specification -/

/-- What an inter- or extrapolator of the class gives for the grid points `g` and the parameters `p`. -/
def ParamCls.estimate : ParamCls τ → ND V → ND V → τ → Except Err (ND V)
  | .compute f, g, p, t => f g p t
  | .nearest index, g, p, t => match index g t with
    | .error e => .error e
    | .ok i => p.row i

/-- The estimate for the grid points `g` and the parameters `p`: the interpolator's inside the grid, the extrapolator's outside. -/
def estimate (inGrid : ND V → τ → Except Err Bool) (interp : ParamCls τ) (extrap : Option (ParamCls τ)) (g p : ND V) (t : τ) : Except Err (ND V) :=
  match inGrid g t with
  | .error e => .error e
  | .ok true => interp.estimate g p t
  | .ok false => match extrap with
    | none => .error .valueError
    | some x => x.estimate g p t

/-- Whatever the caller writes into the arrays at hand (also into earlier estimates) and whatever estimates are made: a call gives the same as directly after the construction. -/
def HistoryIndependent (call : Mem V → τ → Mem V × Except Err Ref) (s : State) : Prop :=
  ∀ (prog : List (Step τ)) (t : τ), value call (run call s prog).mem t = value call s.mem t

/-- The array objects of the caller exist. -/
def Known (m : Mem V) (handles : List Ref) : Prop := ∀ r ∈ handles, r.buf < m.next

/-- The caller has no array object on this memory. -/
def Unreachable (handles : List Ref) (r : Ref) : Prop := ∀ h ∈ handles, h.buf ≠ r.buf

/-! ## Parametrized estimators -/

theorem eval_new (c : ParamCls τ) (g p : Ref) (m : Mem V) (t : τ) : Obj.eval (c.new g p).method ((c.new g p).stored.map m.read) t = c.estimate (m.read g) (m.read p) t := by
  cases c with
  | compute f => rfl
  | nearest index =>
    unfold ParamCls.new Obj.eval ParamCls.estimate
    simp only [List.map_cons, List.map_nil, List.getElem?_cons_succ, List.getElem?_cons_zero]
    cases index (m.read g) t <;> rfl

theorem stored_new (c : ParamCls τ) (g p : Ref) : (c.new g p).stored = [g, p] := by cases c <;> rfl

theorem value_est (inGrid : ND V → τ → Except Err Bool) (interp : ParamCls τ) (extrap : Option (ParamCls τ)) (g p : Ref) (m : Mem V) (t : τ) (hg : g.buf < m.next) (hp : p.buf < m.next) :
    value (Est.call ⟨g, inGrid, interp.new g p, extrap.map fun x => x.new g p⟩) m t = estimate inGrid interp extrap (m.read g) (m.read p) t := by
  have hst : ∀ (c : ParamCls τ), ∀ r ∈ (c.new g p).stored, r.buf < m.next := by
    intro c r hr
    rw [stored_new] at hr
    simp only [List.mem_cons, List.not_mem_nil, or_false] at hr
    rcases hr with rfl | rfl
    · exact hg
    · exact hp
  rw [Est.value_eq _ m t (hst interp) (by
    intro x hx
    simp only at hx
    cases extrap with
    | none => cases hx
    | some c => cases hx; exact hst c)]
  simp only [eval_new]
  unfold estimate
  cases inGrid (m.read g) t with
  | error e => rfl
  | ok b =>
    cases b with
    | true => rfl
    | false =>
      cases extrap with
      | none => rfl
      | some x => exact eval_new x g p m t

theorem sortInput_one (argsort : ND V → List ℕ) (m : Mem V) (grid data : Ref) :
    (sortInput argsort true m grid data).1.next = m.next + 2 ∧ (sortInput argsort true m grid data).2.1.buf = m.next ∧ (sortInput argsort true m grid data).2.2.buf = m.next + 1 ∧
    (∀ b < m.next, (sortInput argsort true m grid data).1.data b = m.data b) ∧
    (sortInput argsort true m grid data).1.read (sortInput argsort true m grid data).2.1 = (m.read grid).takeRows (argsort (m.read grid)) ∧
    (sortInput argsort true m grid data).1.read (sortInput argsort true m grid data).2.2 = (m.read data).takeRows (argsort (m.read grid)) := by
  unfold sortInput
  simp only [if_true]
  refine ⟨rfl, rfl, rfl, ?_, ?_, Mem.read_alloc_new _ _⟩
  · intro b hb
    rw [data_alloc _ _ (Nat.lt_succ_of_lt hb), data_alloc _ _ hb]
  · rw [Mem.read_alloc_old _ _ (Nat.lt_succ_self m.next), Mem.read_alloc_new]

theorem computing_new {f : ND V → ND V → τ → Except Err (ND V)} {g p : Ref} : ((ParamCls.compute f).new g p).method.computing := trivial

theorem freshCall_new (inGrid : ND V → τ → Except Err Bool) (f : ND V → ND V → τ → Except Err (ND V)) (x : Option (ND V → ND V → τ → Except Err (ND V))) (g p : Ref) :
    FreshCall (Est.call ⟨g, inGrid, (ParamCls.compute f).new g p, (x.map ParamCls.compute).map fun x => x.new g p⟩) := by
  apply Est.freshCall _ computing_new
  intro y hy
  cases x with
  | none => cases hy
  | some h => cases hy; exact computing_new

/-- **C124** Parametrized estimators on one-dimensional grids, with an interpolator (and extrapolator) that computes its result (all but nearest neighbor searchers): after the construction the caller may write
anything into the grid points, the parameters, any other array and all estimates received, and make any calls in between; every call gives the estimate for the grid points and parameters (sorted) as they were
when the estimator was constructed. -/
theorem C124_parametrized_1d (argsort : ND V → List ℕ) (inGrid : ND V → τ → Except Err Bool) (f : ND V → ND V → τ → Except Err (ND V)) (x : Option (ND V → ND V → τ → Except Err (ND V)))
    (m : Mem V) (grid params : Ref) (handles : List Ref) (hh : Known m handles) (prog : List (Step τ)) (t : τ) :
    let c := parametrizedNew argsort true inGrid (.compute f) (x.map .compute) m grid params
    value c.2.call (run c.2.call ⟨c.1, handles⟩ prog).mem t =
      estimate inGrid (.compute f) (x.map .compute) ((m.read grid).takeRows (argsort (m.read grid))) ((m.read params).takeRows (argsort (m.read grid))) t := by
  intro c
  obtain ⟨h1, h2, h3, h4, h5, h6⟩ := sortInput_one argsort m grid params
  have hr := (freshCall_new inGrid f x (sortInput argsort true m grid params).2.1 (sortInput argsort true m grid params).2.2).run (D := [m.next, m.next + 1])
    ⟨(sortInput argsort true m grid params).1, handles⟩ (by simp only [List.mem_cons, List.not_mem_nil, or_false, h1]; omega)
    (by
      intro r hr
      have := hh r hr
      simp only [h1, List.mem_cons, List.not_mem_nil, or_false]
      omega) prog
  show value _ (run _ ⟨(sortInput argsort true m grid params).1, handles⟩ prog).mem t = _
  have h7 : m.next + 2 ≤ (run c.2.call ⟨(sortInput argsort true m grid params).1, handles⟩ prog).mem.next := by
    have := hr.1
    simp only [h1] at this
    exact this
  refine (value_est inGrid (.compute f) (x.map .compute) _ _ _ t (by rw [h2]; omega) (by rw [h3]; omega)).trans ?_
  rw [← h5, ← h6]
  congr 1
  · exact read_congr (by rw [h2]; exact hr.2.1 _ (by simp))
  · exact read_congr (by rw [h3]; exact hr.2.1 _ (by simp))

/-- **C124** More than one dimension, interpolators that compute: every call gives the estimate for the values the caller's parameter array has at the time of the call. (The caller's grid points are
assumed not to be changed.) So, other than on one-dimensional grids, changing the array after the construction changes the estimates. -/
theorem C124_parametrized_more_dims (argsort : ND V → List ℕ) (inGrid : ND V → τ → Except Err Bool) (f : ND V → ND V → τ → Except Err (ND V)) (x : Option (ND V → ND V → τ → Except Err (ND V)))
    (m : Mem V) (grid params : Ref) (hg : grid.buf < m.next) (hp : params.buf < m.next) (handles : List Ref) (hh : Known m handles) (hgh : Unreachable handles grid) (prog : List (Step τ)) (t : τ) :
    let c := parametrizedNew argsort false inGrid (.compute f) (x.map .compute) m grid params
    value c.2.call (run c.2.call ⟨c.1, handles⟩ prog).mem t =
      estimate inGrid (.compute f) (x.map .compute) (m.read grid) ((run c.2.call ⟨c.1, handles⟩ prog).mem.read params) t := by
  intro c
  have hr := (freshCall_new inGrid f x grid params).run (D := [grid.buf]) ⟨m, handles⟩ (by simpa using hg)
    (by
      intro r hr
      refine ⟨hh r hr, ?_⟩
      simpa using hgh r hr) prog
  show value _ (run _ ⟨m, handles⟩ prog).mem t = estimate _ _ _ _ ((run _ ⟨m, handles⟩ prog).mem.read params) t
  refine (value_est inGrid (.compute f) (x.map .compute) grid params _ t (lt_of_lt_of_le hg hr.1) (lt_of_lt_of_le hp hr.1)).trans ?_
  congr 1
  exact read_congr (hr.2.1 _ (by simp))

/-- **C124** No call of these estimators changes an array of the caller. -/
theorem C124_calls_write_nothing (argsort : ND V → List ℕ) (oneDim : Bool) (inGrid : ND V → τ → Except Err Bool) (interp : ParamCls τ) (extrap : Option (ParamCls τ)) (m : Mem V) (grid params : Ref) (m' : Mem V) (t : τ)
    (r : Ref) (hr : r.buf < m'.next) :
    ((parametrizedNew argsort oneDim inGrid interp extrap m grid params).2.call m' t).1.read r = m'.read r :=
  read_congr ((Est.frame _).keep m' t r.buf hr)

/-! ## EffectiveAreaEstimator -/

theorem effectiveAreaCallM_value (e : Est τ) (amin : ℝ) (m : Mem V) (t : τ) :
    value (effectiveAreaCallM e amin) m t = match value e.call m t with
      | .error err => .error err
      | .ok a => .ok ⟨a.shape, fun idx => areaFromLog amin (a.get idx)⟩ := by
  unfold value effectiveAreaCallM
  rcases h : e.call m t with ⟨m', r⟩
  cases r with
  | error err => rfl
  | ok r => simp only [Mem.read_alloc_new]; rfl

theorem effectiveAreaCallM_fresh (e : Est τ) (amin : ℝ) : FreshCall (effectiveAreaCallM e amin) := by
  have hf := e.frame
  refine ⟨⟨?_, ?_⟩, ?_⟩
  · intro m t
    have h1 := hf.mono m t
    unfold effectiveAreaCallM
    rcases h : e.call m t with ⟨m', r⟩
    rw [h] at h1
    cases r with
    | error err => exact h1
    | ok r => exact Nat.le_succ_of_le h1
  · intro m t b hb
    have h1 := hf.mono m t
    have h2 := hf.keep m t b hb
    unfold effectiveAreaCallM
    rcases h : e.call m t with ⟨m', r⟩
    rw [h] at h1 h2
    cases r with
    | error err => exact h2
    | ok r => exact (data_alloc _ _ (lt_of_lt_of_le hb h1)).trans h2
  · intro m t r hr
    have h1 := hf.mono m t
    unfold effectiveAreaCallM at hr ⊢
    rcases h : e.call m t with ⟨m', q⟩
    rw [h] at h1 hr
    cases q with
    | error err => cases hr
    | ok q =>
      cases hr
      exact ⟨h1, Nat.lt_succ_self _⟩

theorem toSquareMetres_next (scale : ℝ) (m : Mem V) (areas : Ref) : m.next ≤ (toSquareMetres scale m areas).1.next := by
  unfold toSquareMetres
  split
  · exact le_refl _
  · exact Nat.le_succ _

theorem estimate_same (inGrid : ND V → τ → Except Err Bool) (interp : ParamCls τ) (extrap : Option (ParamCls τ)) (g p : Ref) (m m' : Mem V) (t : τ) (hg : g.buf < m.next) (hp : p.buf < m.next)
    (hg' : g.buf < m'.next) (hp' : p.buf < m'.next) (h1 : m'.data g.buf = m.data g.buf) (h2 : m'.data p.buf = m.data p.buf) :
    value (Est.call ⟨g, inGrid, interp.new g p, extrap.map fun x => x.new g p⟩) m' t = value (Est.call ⟨g, inGrid, interp.new g p, extrap.map fun x => x.new g p⟩) m t := by
  rw [value_est _ _ _ _ _ _ _ hg hp, value_est _ _ _ _ _ _ _ hg' hp', read_congr h1, read_congr h2]

/-- **C124** EffectiveAreaEstimator, with every inter- and extrapolator class including nearest neighbor searchers: history independent on one-dimensional grids whatever is written; with more dimensions as long as
the caller does not change the grid points. -/
theorem C124_effective_area (argsort : ND V → List ℕ) (oneDim : Bool) (inGrid : ND V → τ → Except Err Bool) (interp : ParamCls τ) (extrap : Option (ParamCls τ)) (scale amin : ℝ) (m : Mem V)
    (grid areas : Ref) (hg : grid.buf < m.next) (handles : List Ref) (hh : Known m handles) (hgh : oneDim = false → Unreachable handles grid) :
    let c := effectiveAreaNew argsort oneDim inGrid interp extrap scale amin m grid areas
    HistoryIndependent (effectiveAreaCallM c.2 amin) ⟨c.1, handles⟩ := by
  intro c prog t
  set m1 := (toSquareMetres scale m areas).1.modify (toSquareMetres scale m areas).2 (floorV amin) with hm1
  have hn1 : m.next ≤ m1.next := toSquareMetres_next scale m areas
  set a : ND V := ⟨areas.shape, fun idx => logV ((m1.read (toSquareMetres scale m areas).2).get idx)⟩ with ha
  set m2 := (m1.alloc a).1 with hm2
  have hn2 : m2.next = m1.next + 1 := rfl
  have hfresh := effectiveAreaCallM_fresh c.2 amin
  rw [effectiveAreaCallM_value, effectiveAreaCallM_value]
  suffices hs : value c.2.call (run (effectiveAreaCallM c.2 amin) ⟨c.1, handles⟩ prog).mem t = value c.2.call c.1 t by rw [hs]
  cases oneDim with
  | true =>
    obtain ⟨h1, h2, h3, h4, h5, h6⟩ := sortInput_one argsort m2 grid (m1.alloc a).2
    have hc : c.1.next = m2.next + 2 := h1
    have hr := hfresh.run (D := [m2.next, m2.next + 1]) ⟨c.1, handles⟩ (by simp only [List.mem_cons, List.not_mem_nil, or_false, hc]; omega)
      (by
        intro r hr
        have := hh r hr
        simp only [hc, List.mem_cons, List.not_mem_nil, or_false]
        omega) prog
    have hle : m2.next + 2 ≤ (run (effectiveAreaCallM c.2 amin) ⟨c.1, handles⟩ prog).mem.next := by have := hr.1; simp only [hc] at this; exact this
    exact estimate_same inGrid interp extrap (sortInput argsort true m2 grid (m1.alloc a).2).2.1 (sortInput argsort true m2 grid (m1.alloc a).2).2.2 c.1 _ t
      (by rw [h2, hc]; omega) (by rw [h3, hc]; omega) (by rw [h2]; omega) (by rw [h3]; omega) (by rw [h2]; exact hr.2.1 _ (by simp)) (by rw [h3]; exact hr.2.1 _ (by simp))
  | false =>
    have hc : c.1.next = m1.next + 1 := rfl
    have hr := hfresh.run (D := [grid.buf, m1.next]) ⟨c.1, handles⟩
      (by
        intro b hb
        simp only [List.mem_cons, List.not_mem_nil, or_false] at hb
        simp only [hc]
        omega)
      (by
        intro r hr
        have h1 := hh r hr
        have h2 := hgh rfl r hr
        simp only [hc, List.mem_cons, List.not_mem_nil, or_false]
        omega) prog
    have hle : m1.next + 1 ≤ (run (effectiveAreaCallM c.2 amin) ⟨c.1, handles⟩ prog).mem.next := by have := hr.1; simp only [hc] at this; exact this
    exact estimate_same inGrid interp extrap grid (m1.alloc a).2 c.1 _ t (by rw [hc]; omega) (by rw [hc]; exact Nat.lt_succ_self _) (by omega) (by show m1.next < _; omega)
      (hr.2.1 _ (by simp)) (hr.2.1 _ (by simp [Mem.alloc]))

/-! ## The hypotheses can be met -/

/-- two arrays in memory: grid points (0, 1) and parameters (10, 11) -/
noncomputable def exMem : Mem V := ⟨fun b p => if b = 0 then .fin (p.headD 0) else .fin (10 + p.headD 0), 2⟩
/-- the grid points -/
def exGrid : Ref := ⟨0, [2, 1], id⟩
/-- the parameters -/
def exParams : Ref := ⟨1, [2, 1], id⟩

example : Known exMem [exGrid, exParams] := by intro r hr; simp at hr; rcases hr with rfl | rfl <;> simp [exMem, exGrid, exParams]

example : exGrid.buf < exMem.next ∧ exParams.buf < exMem.next ∧ Known exMem [exParams] ∧ Unreachable [exParams] exGrid := by
  refine ⟨by simp [exMem, exGrid], by simp [exMem, exParams], ?_, ?_⟩
  · intro r hr; simp at hr; subst hr; simp [exMem, exParams]
  · intro r hr; simp at hr; subst hr; simp [exGrid, exParams]

/-- with more dimensions the estimate does depend on later changes: an interpolator that returns the first row, and a caller who writes into it -/
example : ¬ HistoryIndependent (parametrizedNew (τ := Unit) (fun _ => [0, 1]) false (fun _ _ => .ok true) (.compute fun _ p _ => p.row 0) none exMem exGrid exParams).2.call ⟨exMem, [exParams]⟩ := by
  intro h
  have h1 := h [.write 0 [0, 0] .nan] ()
  have hv : ND.Valid exParams.shape [0, 0] := by unfold exParams ND.Valid; simp
  have hr : (run (parametrizedNew (τ := Unit) (fun _ => [0, 1]) false (fun _ _ => .ok true) (.compute fun _ p _ => p.row 0) none exMem exGrid exParams).2.call ⟨exMem, [exParams]⟩
      [.write 0 [0, 0] .nan]).mem = exMem.write exParams [0, 0] .nan := rfl
  rw [hr] at h1
  have h2 := value_est (τ := Unit) (fun _ _ => .ok true) (.compute fun _ p _ => p.row 0) none exGrid exParams exMem () (by simp [exMem, exGrid]) (by simp [exMem, exParams])
  have h3 := value_est (τ := Unit) (fun _ _ => .ok true) (.compute fun _ p _ => p.row 0) none exGrid exParams (exMem.write exParams [0, 0] .nan) ()
    (by rw [Mem.next_write]; simp [exMem, exGrid]) (by rw [Mem.next_write]; simp [exMem, exParams])
  have h4 := h3.symm.trans (h1.trans h2)
  have h5 := Mem.read_write_self exMem exParams [0, 0] .nan hv
  simp only [estimate, ParamCls.estimate, ND.row, Mem.read, exParams, Nat.zero_lt_succ, if_true, Except.ok.injEq, ND.mk.injEq, true_and, Nat.ofNat_pos] at h4
  have h6 := congrFun h4 [0]
  simp only [Mem.read, exParams] at h5
  rw [h5] at h6
  simp [exMem] at h6

end Pyirf.Memory
