import Verif.Memory.ViewProps
import Verif.Interpolation.RadMaxProps

/-!
# C127: RadMaxEstimator and the caller's RAD_MAX array
-/
set_option linter.unusedSectionVars false
set_option linter.unusedSimpArgs false

namespace Pyirf.Memory
open Pyirf Pyirf.Np Pyirf.Interpolation
variable {τ : Type}

/-! ## Specification -/

open Classical in
/-- A function applied to all entries of an array. -/
noncomputable def onEntries (f : V → V) (a : ND V) : ND V := ⟨a.shape, fun idx => if ND.Valid a.shape idx then f (a.get idx) else a.get idx⟩

/-- The estimate from the grid points `g` and the templates `p`, where the search for fill values is made in `q`. -/
noncomputable def radMaxEstimate (inGrid : ND V → τ → Except Err Bool) (interp : ParamCls τ) (extrap : Option (ParamCls τ)) (fill : Bool) (nnAt : ND V → τ → Bool)
    (fillStep : ND V → ND V → ND V → τ → Except Err (ND V)) (g p q : ND V) (t : τ) : Except Err (ND V) :=
  match estimate inGrid interp extrap g p t with
  | .error e => .error e
  | .ok a => if fill = false ∨ nnAt g t = true then .ok (onEntries clip0 a) else fillStep g q (onEntries clip0 a) t

/-! ## Proofs -/

theorem read_modify_inj (m : Mem V) (r : Ref) (h : Function.Injective r.pos) (f : V → V) : (m.modify r f).read r = onEntries f (m.read r) := by
  unfold onEntries Mem.read Mem.modify
  simp only [ND.mk.injEq, true_and]
  funext idx
  by_cases hv : ND.Valid r.shape idx
  · rw [if_pos hv, if_pos ⟨rfl, idx, hv, rfl⟩]
  · rw [if_neg hv, if_neg]
    rintro ⟨-, j, hj, he⟩
    rw [h he] at hj
    exact hv hj

theorem radMax_frame (e : RadMaxM τ) (hf : FreshCall e.est.call) : FreshCall e.call := by
  refine ⟨⟨?_, ?_⟩, ?_⟩
  · intro m t
    have h1 := hf.mono m t
    unfold RadMaxM.call
    rcases h : e.est.call m t with ⟨m', r⟩
    rw [h] at h1
    cases r with
    | error err => exact h1
    | ok r =>
      simp only
      split
      · exact h1
      · split
        · exact h1
        · exact Nat.le_succ_of_le h1
  · intro m t b hb
    have h1 := hf.mono m t
    have h2 := hf.keep m t b hb
    have h3 := hf.fresh m t
    unfold RadMaxM.call
    rcases h : e.est.call m t with ⟨m', r⟩
    rw [h] at h1 h2 h3
    cases r with
    | error err => exact h2
    | ok r =>
      have hne : b ≠ r.buf := by have := (h3 r rfl).1; omega
      have h4 : (m'.modify r clip0).data b = m.data b := (data_modify _ _ _ hne).trans h2
      simp only
      split
      · exact h4
      · split
        · exact h4
        · exact (data_alloc (m'.modify r clip0) _ (lt_of_lt_of_le hb h1)).trans h4
  · intro m t q hq
    have h1 := hf.mono m t
    have h3 := hf.fresh m t
    unfold RadMaxM.call at hq ⊢
    rcases h : e.est.call m t with ⟨m', r⟩
    rw [h] at h1 h3 hq
    cases r with
    | error err => cases hq
    | ok r =>
      simp only at hq ⊢
      split at hq
      · rename_i hc
        cases hq
        rw [if_pos hc]
        exact h3 _ rfl
      · rename_i hc
        rw [if_neg hc]
        split at hq
        · cases hq
        · rename_i heq
          cases hq
          simp only [heq]
          exact ⟨h1, Nat.lt_succ_self _⟩

theorem radMax_value (e : RadMaxM τ) (hf : FreshCall e.est.call) (hpos : ∀ m t r, (e.est.call m t).2 = .ok r → r.pos = id) (m : Mem V) (t : τ) (hg : e.est.grid.buf < m.next)
    (hp : e.params.buf < m.next) :
    value e.call m t = match value e.est.call m t with
      | .error err => .error err
      | .ok a => if e.fill = false ∨ e.nnAt (m.read e.est.grid) t = true then .ok (onEntries clip0 a) else e.fillStep (m.read e.est.grid) (m.read e.params) (onEntries clip0 a) t := by
  have h1 := hf.mono m t
  have h2 := hf.keep m t
  have h3 := hf.fresh m t
  have h4 := hpos m t
  unfold value RadMaxM.call
  rcases h : e.est.call m t with ⟨m', r⟩
  rw [h] at h1 h2 h3 h4
  cases r with
  | error err => rfl
  | ok r =>
    have hr : (m'.modify r clip0).read r = onEntries clip0 (m'.read r) := read_modify_inj _ _ (by rw [h4 r rfl]; exact fun _ _ h => h) _
    have hb := (h3 r rfl).1
    have q1 : (m'.modify r clip0).read e.est.grid = m.read e.est.grid := read_congr ((data_modify _ _ _ (by omega)).trans (h2 _ hg))
    have q2 : (m'.modify r clip0).read e.params = m.read e.params := read_congr ((data_modify _ _ _ (by omega)).trans (h2 _ hp))
    simp only [q1, q2, hr]
    by_cases hc : e.fill = false ∨ e.nnAt (m.read e.est.grid) t = true
    · rw [if_pos hc, if_pos hc]
      simp only [hr]
    · rw [if_neg hc, if_neg hc]
      cases e.fillStep (m.read e.est.grid) (m.read e.params) (onEntries clip0 (m'.read r)) t with
      | error err => rfl
      | ok a => simp only [Mem.read_alloc_new]

/-- **C127** RadMaxEstimator on one-dimensional grids with an interpolator (and extrapolator) that computes: after any writes of the caller and any calls, a call gives the estimate for the grid points and RAD_MAX values
(sorted) as they were at the construction, but the fill values are looked for in the caller's array, in the caller's order, as it is now. -/
theorem C127_1d (argsort : ND V → List ℕ) (inGrid : ND V → τ → Except Err Bool) (f : ND V → ND V → τ → Except Err (ND V)) (x : Option (ND V → ND V → τ → Except Err (ND V))) (fill : Bool)
    (nnAt : ND V → τ → Bool) (fillStep : ND V → ND V → ND V → τ → Except Err (ND V)) (m : Mem V) (grid radMax : Ref) (hp : radMax.buf < m.next) (handles : List Ref) (hh : Known m handles)
    (prog : List (Step τ)) (t : τ) :
    let c := radMaxNew argsort true inGrid (.compute f) (x.map .compute) fill nnAt fillStep m grid radMax
    value c.2.call (run c.2.call ⟨c.1, handles⟩ prog).mem t =
      radMaxEstimate inGrid (.compute f) (x.map .compute) fill nnAt fillStep ((m.read grid).takeRows (argsort (m.read grid))) ((m.read radMax).takeRows (argsort (m.read grid)))
        ((run c.2.call ⟨c.1, handles⟩ prog).mem.read radMax) t := by
  intro c
  obtain ⟨h1, h2, h3, h4, h5, h6⟩ := sortInput_one argsort m grid radMax
  have hfe : FreshCall c.2.est.call := freshCall_new inGrid f x (sortInput argsort true m grid radMax).2.1 (sortInput argsort true m grid radMax).2.2
  have hr := (radMax_frame c.2 hfe).run (D := [m.next, m.next + 1]) ⟨(sortInput argsort true m grid radMax).1, handles⟩
    (by simp only [List.mem_cons, List.not_mem_nil, or_false, h1]; omega)
    (by
      intro r hr
      have := hh r hr
      simp only [h1, List.mem_cons, List.not_mem_nil, or_false]
      omega) prog
  have hc1 : c.1 = (sortInput argsort true m grid radMax).1 := rfl
  rw [← hc1] at hr
  set mem := (run c.2.call ⟨c.1, handles⟩ prog).mem with hmem
  have h7 : m.next + 2 ≤ mem.next := by
    have := hr.1
    simp only [hc1, h1] at this
    exact this
  have hgb : c.2.est.grid.buf < mem.next := by show (sortInput argsort true m grid radMax).2.1.buf < _; rw [h2]; omega
  have hpb : c.2.params.buf < mem.next := by show radMax.buf < _; omega
  have hrg : mem.read c.2.est.grid = (m.read grid).takeRows (argsort (m.read grid)) := by
    rw [← h5]
    exact read_congr (by show mem.data (sortInput argsort true m grid radMax).2.1.buf = (sortInput argsort true m grid radMax).1.data _; rw [h2]; exact hr.2.1 _ (by simp))
  have hrp : mem.read (sortInput argsort true m grid radMax).2.2 = (m.read radMax).takeRows (argsort (m.read grid)) := by
    rw [← h6]
    exact read_congr (by rw [h3]; exact hr.2.1 _ (by simp))
  have hv : value c.2.est.call mem t = estimate inGrid (.compute f) (x.map .compute) ((m.read grid).takeRows (argsort (m.read grid))) ((m.read radMax).takeRows (argsort (m.read grid))) t := by
    refine (value_est inGrid (.compute f) (x.map .compute) (sortInput argsort true m grid radMax).2.1 (sortInput argsort true m grid radMax).2.2 mem t (by rw [h2]; omega) (by rw [h3]; omega)).trans ?_
    rw [hrp]
    have : mem.read (sortInput argsort true m grid radMax).2.1 = _ := hrg
    rw [this]
  have hpos : ∀ m t r, (c.2.est.call m t).2 = .ok r → r.pos = id := by
    apply Est.pos_id
    · exact computing_new
    · intro y hy
      have hy' : (x.map ParamCls.compute).map (fun y => y.new (sortInput argsort true m grid radMax).2.1 (sortInput argsort true m grid radMax).2.2) = some y := hy
      cases x with
      | none => cases hy'
      | some h => cases hy'; exact computing_new
  rw [radMax_value c.2 hfe hpos mem t hgb hpb, hv, hrg]
  rfl

/-- **C127** Without handling of fill values, estimates on one-dimensional grids are independent of everything the caller does after the construction. -/
theorem C127_no_fill (argsort : ND V → List ℕ) (inGrid : ND V → τ → Except Err Bool) (f : ND V → ND V → τ → Except Err (ND V)) (x : Option (ND V → ND V → τ → Except Err (ND V)))
    (nnAt : ND V → τ → Bool) (fillStep : ND V → ND V → ND V → τ → Except Err (ND V)) (m : Mem V) (grid radMax : Ref) (hp : radMax.buf < m.next) (handles : List Ref) (hh : Known m handles) :
    let c := radMaxNew argsort true inGrid (.compute f) (x.map .compute) false nnAt fillStep m grid radMax
    HistoryIndependent c.2.call ⟨c.1, handles⟩ := by
  intro c prog t
  have h := C127_1d argsort inGrid f x false nnAt fillStep m grid radMax hp handles hh
  have key : ∀ q q' : ND V, radMaxEstimate inGrid (.compute f) (x.map .compute) false nnAt fillStep ((m.read grid).takeRows (argsort (m.read grid))) ((m.read radMax).takeRows (argsort (m.read grid))) q t =
      radMaxEstimate inGrid (.compute f) (x.map .compute) false nnAt fillStep ((m.read grid).takeRows (argsort (m.read grid))) ((m.read radMax).takeRows (argsort (m.read grid))) q' t := by
    intro q q'
    unfold radMaxEstimate
    simp only [true_or, if_true]
  exact (h prog t).trans ((key _ _).trans (h [] t).symm)

/-- **C127** With fill values: if the caller writes the fill value into the own array after the construction, at a row that is looked at for the target, the next estimate has the fill value there, whatever the
templates say. (`k` is the caller's array among the arrays at hand.) -/
theorem C127_fill_written_later (argsort : ND V → List ℕ) (inGrid : ND V → τ → Except Err Bool) (f : ND V → ND V → τ → Except Err (ND V)) (x : Option (ND V → ND V → τ → Except Err (ND V)))
    (nnAt : ND V → τ → Bool) (v : ℝ) (seg : ND V → τ → ℕ × ℕ) (m : Mem V) (grid radMax : Ref) (hp : radMax.buf < m.next) (handles : List Ref) (hh : Known m handles)
    (k : ℕ) (hk : handles[k]? = some radMax) (prog : List (Step τ)) (t : τ) (idx : List ℕ) (row : ℕ) (a : ND V) :
    let g := (m.read grid).takeRows (argsort (m.read grid))
    let c := radMaxNew argsort true inGrid (.compute f) (x.map .compute) true nnAt (fillStep1D v seg) m grid radMax
    nnAt g t = false → value c.2.call c.1 t = .ok a → (row = (seg g t).1 ∨ row = (seg g t).2) → ND.Valid radMax.shape (row :: idx) →
    ∃ b, value c.2.call (run c.2.call ⟨c.1, handles⟩ (prog ++ [.write k (row :: idx) (.fin v)])).mem t = .ok b ∧ ∀ j, b.get (j :: idx) = .fin v := by
  intro g c hnn ha hrow hv
  have h := C127_1d argsort inGrid f x true nnAt (fillStep1D v seg) m grid radMax hp handles hh
  have h0 : value c.2.call c.1 t = radMaxEstimate inGrid (.compute f) (x.map .compute) true nnAt (fillStep1D v seg) g ((m.read radMax).takeRows (argsort (m.read grid))) (c.1.read radMax) t := h [] t
  rw [ha] at h0
  have h1 : value c.2.call (run c.2.call ⟨c.1, handles⟩ (prog ++ [.write k (row :: idx) (.fin v)])).mem t = _ := h (prog ++ [.write k (row :: idx) (.fin v)]) t
  rw [h1]
  set q := (run c.2.call ⟨c.1, handles⟩ (prog ++ [.write k (row :: idx) (.fin v)])).mem.read radMax with hq
  unfold radMaxEstimate at h0 ⊢
  cases he : estimate inGrid (.compute f) (x.map .compute) g ((m.read radMax).takeRows (argsort (m.read grid))) t with
  | error e => rw [he] at h0; cases h0
  | ok a0 =>
    rw [he] at h0
    simp only at h0 ⊢
    rw [if_neg (by simp [hnn])] at h0
    have hnc : ¬ (true = false ∨ nnAt ((m.read grid).takeRows (argsort (m.read grid))) t = true) := by
      show ¬ (true = false ∨ nnAt g t = true)
      simp [hnn]
    rw [if_neg hnc]
    unfold fillStep1D at h0 ⊢
    have hlt : (seg g t).1 < radMax.shape.headD 0 ∧ (seg g t).2 < radMax.shape.headD 0 := by
      by_contra hcon
      have hcon' : ¬ ((seg g t).1 < (c.1.read radMax).shape.headD 0 ∧ (seg g t).2 < (c.1.read radMax).shape.headD 0) := hcon
      rw [if_neg hcon'] at h0
      cases h0
    have hlt' : (seg g t).1 < q.shape.headD 0 ∧ (seg g t).2 < q.shape.headD 0 := hlt
    have hk2 : (run c.2.call ⟨c.1, handles⟩ prog).handles[k]? = some radMax := by
      have : ∀ (pr : List (Step τ)) (s : State), s.handles[k]? = some radMax → (run c.2.call s pr).handles[k]? = some radMax := by
        intro pr
        induction pr with
        | nil => intro s hs; exact hs
        | cons b pr ih =>
          intro s hs
          show (run c.2.call (step c.2.call s b) pr).handles[k]? = some radMax
          apply ih
          cases b with
          | write k' i' v' =>
            unfold step
            simp only
            split
            · exact hs
            · exact hs
          | call t' =>
            unfold step
            simp only
            split
            · simp only
              rw [List.getElem?_append_left (List.getElem?_eq_some_iff.1 hs).1]
              exact hs
            · exact hs
      exact this prog _ hk
    have hqv : q.get (row :: idx) = .fin v := by
      rw [hq]
      unfold run at hk2 ⊢
      rw [List.foldl_append]
      simp only [List.foldl_cons, List.foldl_nil, step, hk2]
      exact Mem.read_write_self _ _ _ _ hv
    rw [if_pos hlt']
    refine ⟨_, rfl, ?_⟩
    intro j
    have : (FV.ge (q.get ((seg g t).1 :: idx)) (.fin v) || FV.ge (q.get ((seg g t).2 :: idx)) (.fin v)) = true := by
      rcases hrow with h | h
      · rw [← h, hqv]; simp [FV.ge]
      · rw [← h, hqv]; simp [FV.ge]
    show applyFill v (FV.ge (q.get ((seg g t).1 :: idx)) (.fin v) || FV.ge (q.get ((seg g t).2 :: idx)) (.fin v)) _ = _
    rw [this, applyFill_true]

/-! ## Nearest neighbor searchers -/

/-- **C127** RadMaxEstimator with more than one dimension, where a nearest neighbor searcher makes the estimate: the call sets the negative entries in the nearest grid point's row of the caller's own array to 0;
the other entries stay as they are. -/
theorem C127_nearest_writes (argsort : ND V → List ℕ) (inGrid : ND V → τ → Except Err Bool) (interp : ParamCls τ) (extrap : Option (ParamCls τ)) (fill : Bool) (nnAt : ND V → τ → Bool)
    (fillStep : ND V → ND V → ND V → τ → Except Err (ND V)) (m0 m : Mem V) (grid radMax : Ref) (hi : Function.Injective radMax.pos) (t : τ) (index : ND V → τ → Except Err ℕ)
    (hu : used inGrid interp extrap (m.read grid) t = some (.nearest index)) (hnn : nnAt (m.read grid) t = true)
    (hgr : grid.buf ≠ radMax.buf) (a : ND V) :
    let e := (radMaxNew argsort false inGrid interp extrap fill nnAt fillStep m0 grid radMax).2
    value e.call m t = .ok a →
    ∃ i, index (m.read grid) t = .ok i ∧ (∀ idx, ND.Valid radMax.shape (i :: idx) → ((e.call m t).1.read radMax).get (i :: idx) = clip0 ((m.read radMax).get (i :: idx))) ∧
      (∀ j idx, j ≠ i → ((e.call m t).1.read radMax).get (j :: idx) = (m.read radMax).get (j :: idx)) ∧
      (∀ idx, ND.Valid radMax.shape (i :: idx) → a.get idx = clip0 ((m.read radMax).get (i :: idx))) := by
  intro e ha
  have hun : UsesNearest e.est m t index grid radMax := uses_parametrized hu
  have hex : ∃ a0, value e.est.call m t = .ok a0 := by
    unfold value RadMaxM.call at ha
    unfold value
    rcases h : e.est.call m t with ⟨m', r⟩
    rw [h] at ha
    cases r with
    | error err => cases ha
    | ok r => exact ⟨_, rfl⟩
  obtain ⟨a0, ha0⟩ := hex
  obtain ⟨i, r, h1, h2, h3, h4⟩ := hun.call ha0
  have hs := Ref.row_shape h2
  have hbuf := Ref.row_buf h2
  have hgm : (m.modify r clip0).read grid = m.read grid := Mem.read_modify_other _ _ _ (by rw [hbuf]; exact hgr) _
  have hcond : e.fill = false ∨ e.nnAt ((m.modify r clip0).read e.est.grid) t = true := by
    right
    show nnAt ((m.modify r clip0).read grid) t = true
    rw [hgm, hnn]
  have hc : e.call m t = (m.modify r clip0, .ok r) := by
    unfold RadMaxM.call
    rw [h4 m rfl]
    simp only
    rw [if_pos hcond]
  have hrow : ∀ idx, ND.Valid radMax.shape (i :: idx) → ND.Valid r.shape idx := by
    intro idx hv
    rw [hs.1] at hv
    cases hv with
    | cons _ h => exact h
  refine ⟨i, h1, ?_, ?_, ?_⟩
  · intro idx hv
    rw [hc]
    have := Mem.read_modify_self m r clip0 idx (hrow idx hv)
    unfold Mem.read at this ⊢
    simp only [hbuf, Ref.row_pos h2] at this ⊢
    exact this
  · intro j idx hj
    rw [hc]
    unfold Mem.read Mem.modify
    simp only
    rw [if_neg]
    rintro ⟨-, idx', -, he⟩
    rw [Ref.row_pos h2] at he
    have := hi he
    simp only [List.cons.injEq] at this
    exact hj this.1.symm
  · intro idx hv
    have ha' : a = (m.modify r clip0).read r := by
      unfold value at ha
      rw [hc] at ha
      simpa using ha.symm
    rw [ha', Mem.read_modify_self m r clip0 idx (hrow idx hv)]
    unfold Mem.read
    simp only [hbuf, Ref.row_pos h2]

/-! ## The hypotheses can be met -/

/-- a target between the two grid points, for which the rows 0 and 1 are looked at; the fill value is 20 -/
noncomputable def exRad : Mem V × RadMaxM Unit :=
  radMaxNew (fun _ => [0, 1]) true (fun _ _ => .ok true) (.compute fun _ p _ => .ok ⟨[1, 1], fun idx => p.get (0 :: idx.tail)⟩) none true (fun _ _ => false) (fillStep1D 20 fun _ _ => (0, 1)) exMem exGrid exParams

example : ∃ a, value exRad.2.call exRad.1 () = .ok a ∧ a.get [0, 0] = .fin 10 ∧ ND.Valid exParams.shape [0, 0] ∧ [exGrid, exParams][1]? = some exParams := by
  have hk : Known exMem [exGrid, exParams] := by intro r hr; simp at hr; rcases hr with rfl | rfl <;> simp [exMem, exGrid, exParams]
  have key : value exRad.2.call exRad.1 () = radMaxEstimate (fun _ _ => .ok true) (.compute fun _ p _ => .ok ⟨[1, 1], fun idx => p.get (0 :: idx.tail)⟩) none true (fun _ _ => false)
      (fillStep1D 20 fun _ _ => (0, 1)) ((exMem.read exGrid).takeRows [0, 1]) ((exMem.read exParams).takeRows [0, 1]) (exRad.1.read exParams) () :=
    C127_1d (τ := Unit) (fun _ => [0, 1]) (fun _ _ => .ok true) (fun _ p _ => .ok ⟨[1, 1], fun idx => p.get (0 :: idx.tail)⟩) none true (fun _ _ => false)
      (fillStep1D 20 fun _ _ => (0, 1)) exMem exGrid exParams (by simp [exMem, exParams]) [exGrid, exParams] hk [] ()
  have hg : exRad.1.read exParams = exMem.read exParams := rfl
  rw [hg] at key
  have hv : ND.Valid [1, 1] [0, 0] := by unfold ND.Valid; simp
  have a1 : (exMem.read exParams).get [0, 0] = .fin 10 := by simp [exMem, exParams, Mem.read]
  have a2 : (exMem.read exParams).get [1, 0] = .fin 11 := by simp [exMem, exParams, Mem.read]; norm_num
  have a3 : ((exMem.read exParams).takeRows [0, 1]).get [0, 0] = .fin 10 := by simp [exMem, exParams, Mem.read, ND.takeRows]
  have c1 : clip0 (.fin 10) = .fin 10 := by unfold clip0; rw [FV.lt_fin]; norm_num
  have b1 : (FV.ge (.fin (10 : ℝ)) (.fin 20) || FV.ge (.fin (11 : ℝ)) (.fin 20)) = false := by simp only [FV.ge, FV.le_fin]; norm_num
  unfold radMaxEstimate estimate ParamCls.estimate fillStep1D at key
  simp only [Bool.true_eq_false, Bool.false_eq_true, or_self, if_false] at key
  rw [if_pos ⟨show 0 < 2 by decide, show 1 < 2 by decide⟩] at key
  refine ⟨_, key, ?_, by unfold exParams ND.Valid; simp, rfl⟩
  simp only [List.tail_cons, onEntries]
  rw [if_pos hv, a1, a2, a3, c1, b1]
  unfold applyFill
  simp only [Bool.false_eq_true, if_false, FV.gt, FV.lt_fin]
  norm_num

/-- a nearest neighbor searcher on a caller's array -/
example : ∃ a, value (radMaxNew (τ := Unit) (fun _ => [0, 1]) false (fun _ _ => .ok true) (.nearest fun _ _ => .ok 1) none false (fun _ _ => true) (fun _ _ a _ => .ok a) exMem exGrid exParams).2.call exMem () = .ok a ∧
    ND.Valid exParams.shape [1, 0] ∧ Function.Injective exParams.pos :=
  ⟨_, rfl, by unfold exParams ND.Valid; simp, fun _ _ h => h⟩

end Pyirf.Memory
