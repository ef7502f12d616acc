import Verif.Memory.PdfProps

/-!
# C126: the estimates of nearest neighbor searchers are views of the templates
-/
set_option linter.unusedSectionVars false
set_option linter.unusedSimpArgs false

namespace Pyirf.Memory
open Pyirf Pyirf.Np Pyirf.Interpolation
variable {τ : Type}

/-! ## Specification -/

/-- The class that makes the estimate for a target. -/
def used {γ : Type} (inGrid : ND V → τ → Except Err Bool) (interp : γ) (extrap : Option γ) (g : ND V) (t : τ) : Option γ :=
  match inGrid g t with
  | .ok true => some interp
  | .ok false => extrap
  | .error _ => none

/-- The caller makes an estimate for `t` and then writes the number `v` into the element `idx` of the array received. -/
def spoil (handles : List Ref) (t : τ) (idx : List ℕ) (v : V) : List (Step τ) := [.call t, .write handles.length idx v]

/-! ## Proofs -/

theorem run_spoil {call : Mem V → τ → Mem V × Except Err Ref} {s : State} {t : τ} {r : Ref} {m' : Mem V} (h : call s.mem t = (m', .ok r)) (idx : List ℕ) (v : V) :
    run call s (spoil s.handles t idx v) = ⟨m'.write r idx v, s.handles ++ [r]⟩ := by
  simp [run, spoil, step, h]

theorem Ref.row_shape {r r' : Ref} {i : ℕ} (h : r.row i = .ok r') : r.shape = r.shape.headD 0 :: r'.shape ∧ i < r.shape.headD 0 := by
  unfold Ref.row at h
  split at h
  · rename_i hs
    split at h
    · rename_i hi; cases h; rw [hs]; exact ⟨rfl, hi⟩
    · cases h
  · cases h

theorem Ref.row_pos {r r' : Ref} {i : ℕ} (h : r.row i = .ok r') (idx : List ℕ) : r'.pos idx = r.pos (i :: idx) := by
  unfold Ref.row at h
  split at h
  · split at h
    · cases h; rfl
    · cases h
  · cases h

theorem get_write_other (m : Mem V) (r : Ref) (idx idx' : List ℕ) (v : V) (h : r.pos idx' ≠ r.pos idx) : ((m.write r idx v).read r).get idx' = (m.read r).get idx' := by
  unfold Mem.read Mem.write
  split
  · simp [h]
  · rfl

/-- The searcher is the one that is used. -/
def UsesNearest (e : Est τ) (m : Mem V) (t : τ) (index : ND V → τ → Except Err ℕ) (g p : Ref) : Prop :=
  e.grid = g ∧ ((e.inGrid (m.read g) t = .ok true ∧ e.interp = (ParamCls.nearest index).new g p) ∨ (e.inGrid (m.read g) t = .ok false ∧ e.extrap = some ((ParamCls.nearest index).new g p)))

theorem nearest_obj_call (index : ND V → τ → Except Err ℕ) (g p : Ref) (m : Mem V) (t : τ) : ((ParamCls.nearest index).new g p).call m t =
    match index (m.read g) t with
    | .error e => (m, .error e)
    | .ok i => (m, p.row i) := by
  unfold Obj.call ParamCls.new
  simp only [List.map_cons, List.map_nil, List.getElem?_cons_succ, List.getElem?_cons_zero]
  cases index (m.read g) t <;> rfl

theorem UsesNearest.call {e : Est τ} {m : Mem V} {t : τ} {index : ND V → τ → Except Err ℕ} {g p : Ref} (h : UsesNearest e m t index g p) {a : ND V} (ha : value e.call m t = .ok a) :
    ∃ i r, index (m.read g) t = .ok i ∧ p.row i = .ok r ∧ a = m.read r ∧ ∀ m' : Mem V, m'.read g = m.read g → e.call m' t = (m', .ok r) := by
  obtain ⟨hg, h⟩ := h
  have key : ∀ m' : Mem V, m'.read g = m.read g → e.call m' t = ((ParamCls.nearest index).new g p).call m' t := by
    intro m' hm'
    unfold Est.call
    rw [hg, hm']
    rcases h with ⟨h1, h2⟩ | ⟨h1, h2⟩
    · rw [h1, h2]
    · rw [h1, h2]
  unfold value at ha
  rw [key m rfl, nearest_obj_call] at ha
  cases hi : index (m.read g) t with
  | error err => rw [hi] at ha; cases ha
  | ok i =>
    rw [hi] at ha
    simp only at ha
    cases hr : p.row i with
    | error err => rw [hr] at ha; cases ha
    | ok r =>
      rw [hr] at ha
      cases ha
      refine ⟨i, r, rfl, hr, rfl, ?_⟩
      intro m' hm'
      rw [key m' hm', nearest_obj_call, hm', hi]
      simp only [hr]

/-- The general statement, for every call operator that gives a view that depends on the grid points alone. -/
theorem view_spoiled {call : Mem V → τ → Mem V × Except Err Ref} {s : State} {t : τ} {r : Ref} {g : Ref} (hgr : g.buf ≠ r.buf)
    (hcall : ∀ m' : Mem V, m'.read g = s.mem.read g → call m' t = (m', .ok r)) {idx : List ℕ} (hv : ND.Valid r.shape idx) (v : V) :
    ∃ b, value call (run call s (spoil s.handles t idx v)).mem t = .ok b ∧ b.shape = r.shape ∧ b.get idx = v ∧
      ∀ idx', r.pos idx' ≠ r.pos idx → b.get idx' = (s.mem.read r).get idx' := by
  rw [run_spoil (hcall s.mem rfl)]
  refine ⟨(s.mem.write r idx v).read r, ?_, rfl, Mem.read_write_self _ _ _ _ hv, fun idx' h => get_write_other _ _ _ _ _ h⟩
  unfold value
  rw [hcall _ (Mem.read_write_other _ _ _ hgr _ _)]

theorem uses_parametrized {inGrid : ND V → τ → Except Err Bool} {interp : ParamCls τ} {extrap : Option (ParamCls τ)} {g p : Ref} {m : Mem V} {t : τ} {index : ND V → τ → Except Err ℕ}
    (h : used inGrid interp extrap (m.read g) t = some (.nearest index)) : UsesNearest ⟨g, inGrid, interp.new g p, extrap.map fun x => x.new g p⟩ m t index g p := by
  refine ⟨rfl, ?_⟩
  unfold used at h
  simp only
  cases hb : inGrid (m.read g) t with
  | error e => rw [hb] at h; cases h
  | ok b =>
    rw [hb] at h
    cases b with
    | true =>
      simp only [Option.some.injEq] at h
      rw [h]
      exact Or.inl ⟨rfl, rfl⟩
    | false =>
      simp only at h
      rw [h]
      exact Or.inr ⟨rfl, rfl⟩

theorem sortInput_bufs (argsort : ND V → List ℕ) (oneDim : Bool) (m : Mem V) (grid data : Ref) (hd : oneDim = false → grid.buf ≠ data.buf) :
    (sortInput argsort oneDim m grid data).2.1.buf ≠ (sortInput argsort oneDim m grid data).2.2.buf := by
  cases oneDim with
  | true =>
    obtain ⟨h1, h2, h3, h4, h5, h6⟩ := sortInput_one argsort m grid data
    rw [h2, h3]; omega
  | false => exact hd rfl

theorem sortInput_inj (argsort : ND V → List ℕ) (oneDim : Bool) (m : Mem V) (grid data : Ref) (hd : oneDim = false → Function.Injective data.pos) :
    Function.Injective (sortInput argsort oneDim m grid data).2.2.pos := by
  cases oneDim with
  | true => exact fun _ _ h => h
  | false => exact hd rfl

/-- **C126** Parametrized estimators, where a nearest neighbor searcher makes the estimate (as inter- or extrapolator): in any state of the memory, writing `v` into an element of the estimate just received makes `v` that
element of the next estimate for the same target, the other elements staying as they were (`hi`: with more than one dimension, for a parameter array without repeated elements such as broadcast arrays have). -/
theorem C126_parametrized (argsort : ND V → List ℕ) (oneDim : Bool) (inGrid : ND V → τ → Except Err Bool) (interp : ParamCls τ) (extrap : Option (ParamCls τ)) (m : Mem V) (grid params : Ref)
    (hd : oneDim = false → grid.buf ≠ params.buf) (hi : oneDim = false → Function.Injective params.pos) (s : State) (t : τ) (index : ND V → τ → Except Err ℕ) (idx : List ℕ) (v : V) (a : ND V) :
    let c := parametrizedNew argsort oneDim inGrid interp extrap m grid params
    used inGrid interp extrap (s.mem.read c.2.grid) t = some (.nearest index) → value c.2.call s.mem t = .ok a → ND.Valid a.shape idx →
    ∃ b, value c.2.call (run c.2.call s (spoil s.handles t idx v)).mem t = .ok b ∧ b.shape = a.shape ∧ b.get idx = v ∧ ∀ idx', idx' ≠ idx → b.get idx' = a.get idx' := by
  intro c hu ha hv
  have hun : UsesNearest c.2 s.mem t index (sortInput argsort oneDim m grid params).2.1 (sortInput argsort oneDim m grid params).2.2 := uses_parametrized hu
  obtain ⟨i, r, h1, h2, h3, h4⟩ := hun.call ha
  have hb := sortInput_bufs argsort oneDim m grid params hd
  rw [← Ref.row_buf h2] at hb
  subst h3
  obtain ⟨b, k1, k2, k3, k4⟩ := view_spoiled hb h4 hv v
  refine ⟨b, k1, k2, k3, fun idx' hne => k4 idx' ?_⟩
  rw [Ref.row_pos h2, Ref.row_pos h2]
  intro h
  have := sortInput_inj argsort oneDim m grid params hi h
  simp only [List.cons.injEq, true_and] at this
  exact hne this

/-- **C126** So these estimators are not independent of what the caller does with the estimates, whenever an estimate has an element at all. -/
theorem C126_not_independent (argsort : ND V → List ℕ) (oneDim : Bool) (inGrid : ND V → τ → Except Err Bool) (interp : ParamCls τ) (extrap : Option (ParamCls τ)) (m : Mem V) (grid params : Ref)
    (hd : oneDim = false → grid.buf ≠ params.buf) (hi : oneDim = false → Function.Injective params.pos) (handles : List Ref) (t : τ) (index : ND V → τ → Except Err ℕ) (idx : List ℕ) (a : ND V) :
    let c := parametrizedNew argsort oneDim inGrid interp extrap m grid params
    used inGrid interp extrap (c.1.read c.2.grid) t = some (.nearest index) → value c.2.call c.1 t = .ok a → ND.Valid a.shape idx →
    ¬ HistoryIndependent c.2.call ⟨c.1, handles⟩ := by
  intro c hu ha hv hind
  obtain ⟨v, hne⟩ : ∃ v : V, v ≠ a.get idx := by
    cases h : a.get idx with
    | nan => exact ⟨.fin 0, by simp⟩
    | fin x => exact ⟨.nan, by simp⟩
    | pinf => exact ⟨.nan, by simp⟩
    | ninf => exact ⟨.nan, by simp⟩
  obtain ⟨b, k1, k2, k3, k4⟩ := C126_parametrized argsort oneDim inGrid interp extrap m grid params hd hi ⟨c.1, handles⟩ t index idx v a hu ha hv
  have := hind (spoil handles t idx v) t
  rw [k1, ha] at this
  cases this
  exact hne k3.symm

/-- **C126** With one-dimensional grids this does not touch the caller's own arrays. -/
theorem C126_own_arrays_1d (argsort : ND V → List ℕ) (inGrid : ND V → τ → Except Err Bool) (interp : ParamCls τ) (extrap : Option (ParamCls τ)) (m : Mem V) (grid params : Ref)
    (s : State) (t : τ) (index : ND V → τ → Except Err ℕ) (idx : List ℕ) (v : V) (a : ND V) (r : Ref) (hr : r.buf < m.next) :
    let c := parametrizedNew argsort true inGrid interp extrap m grid params
    used inGrid interp extrap (s.mem.read c.2.grid) t = some (.nearest index) → value c.2.call s.mem t = .ok a →
    (run c.2.call s (spoil s.handles t idx v)).mem.read r = s.mem.read r := by
  intro c hu ha
  have hun : UsesNearest c.2 s.mem t index (sortInput argsort true m grid params).2.1 (sortInput argsort true m grid params).2.2 := uses_parametrized hu
  obtain ⟨i, r', h1, h2, h3, h4⟩ := hun.call ha
  rw [run_spoil (h4 s.mem rfl)]
  apply Mem.read_write_other
  rw [Ref.row_buf h2, (sortInput_one argsort m grid params).2.2.1]
  omega

/-- **C126** With more dimensions it does: the element of the nearest grid point's row in the caller's own parameter array becomes `v`. -/
theorem C126_own_array_more_dims (argsort : ND V → List ℕ) (inGrid : ND V → τ → Except Err Bool) (interp : ParamCls τ) (extrap : Option (ParamCls τ)) (m : Mem V) (grid params : Ref)
    (s : State) (t : τ) (index : ND V → τ → Except Err ℕ) (idx : List ℕ) (v : V) (a : ND V) :
    let c := parametrizedNew argsort false inGrid interp extrap m grid params
    used inGrid interp extrap (s.mem.read grid) t = some (.nearest index) → value c.2.call s.mem t = .ok a → ND.Valid a.shape idx →
    ∃ i, index (s.mem.read grid) t = .ok i ∧ ND.Valid params.shape (i :: idx) ∧ ((run c.2.call s (spoil s.handles t idx v)).mem.read params).get (i :: idx) = v := by
  intro c hu ha hv
  have hun : UsesNearest c.2 s.mem t index grid params := uses_parametrized hu
  obtain ⟨i, r, h1, h2, h3, h4⟩ := hun.call ha
  subst h3
  have hs := Ref.row_shape h2
  refine ⟨i, h1, ?_, ?_⟩
  · rw [hs.1]
    exact List.Forall₂.cons hs.2 hv
  · rw [run_spoil (h4 s.mem rfl)]
    have := Mem.read_write_self s.mem r idx v hv
    unfold Mem.read at this ⊢
    simp only [Ref.row_buf h2, Ref.row_pos h2] at this ⊢
    exact this

/-! ## Estimators of discrete PDFs -/

theorem nearest_pdf_new (index : ND V → τ → Except Err ℕ) (m : Mem V) (g e p : Ref) : ((PdfCls.nearest index).new m g e p).2 = (ParamCls.nearest index).new g p := rfl

theorem uses_pdf (argsort : ND V → List ℕ) (oneDim : Bool) (inGrid : ND V → τ → Except Err Bool) (interp : PdfCls τ) (extrap : Option (PdfCls τ)) (m : Mem V) (grid edges pdf : Ref) (s : State) (t : τ)
    (index : ND V → τ → Except Err ℕ) (h : used inGrid interp extrap (s.mem.read (pdfNew argsort oneDim inGrid interp extrap m grid edges pdf).2.grid) t = some (.nearest index)) :
    UsesNearest (pdfNew argsort oneDim inGrid interp extrap m grid edges pdf).2 s.mem t index (sortInput argsort oneDim m grid pdf).2.1 (sortInput argsort oneDim m grid pdf).2.2 := by
  unfold pdfNew at h ⊢
  generalize sortInput argsort oneDim m grid pdf = q at h ⊢
  cases extrap with
  | none =>
    simp only at h ⊢
    refine ⟨rfl, ?_⟩
    unfold used at h
    simp only
    cases hb : inGrid (s.mem.read q.2.1) t with
    | error e => rw [hb] at h; cases h
    | ok b =>
      rw [hb] at h
      cases b with
      | true =>
        simp only [Option.some.injEq] at h
        rw [h]
        exact Or.inl ⟨rfl, rfl⟩
      | false => cases h
  | some x =>
    simp only at h ⊢
    refine ⟨rfl, ?_⟩
    unfold used at h
    simp only
    cases hb : inGrid (s.mem.read q.2.1) t with
    | error e => rw [hb] at h; cases h
    | ok b =>
      rw [hb] at h
      cases b with
      | true =>
        simp only [Option.some.injEq] at h
        rw [h]
        exact Or.inl ⟨rfl, rfl⟩
      | false =>
        simp only [Option.some.injEq] at h
        rw [h]
        exact Or.inr ⟨rfl, rfl⟩

/-- **C126** The same for estimators of discrete PDFs. -/
theorem C126_pdf (argsort : ND V → List ℕ) (oneDim : Bool) (inGrid : ND V → τ → Except Err Bool) (interp : PdfCls τ) (extrap : Option (PdfCls τ)) (m : Mem V) (grid edges pdf : Ref)
    (hd : oneDim = false → grid.buf ≠ pdf.buf) (hi : oneDim = false → Function.Injective pdf.pos) (s : State) (t : τ) (index : ND V → τ → Except Err ℕ) (idx : List ℕ) (v : V) (a : ND V) :
    let c := pdfNew argsort oneDim inGrid interp extrap m grid edges pdf
    used inGrid interp extrap (s.mem.read c.2.grid) t = some (.nearest index) → value c.2.call s.mem t = .ok a → ND.Valid a.shape idx →
    ∃ b, value c.2.call (run c.2.call s (spoil s.handles t idx v)).mem t = .ok b ∧ b.shape = a.shape ∧ b.get idx = v ∧ ∀ idx', idx' ≠ idx → b.get idx' = a.get idx' := by
  intro c hu ha hv
  obtain ⟨i, r, h1, h2, h3, h4⟩ := (uses_pdf argsort oneDim inGrid interp extrap m grid edges pdf s t index hu).call ha
  have hb := sortInput_bufs argsort oneDim m grid pdf hd
  rw [← Ref.row_buf h2] at hb
  subst h3
  obtain ⟨b, k1, k2, k3, k4⟩ := view_spoiled hb h4 hv v
  refine ⟨b, k1, k2, k3, fun idx' hne => k4 idx' ?_⟩
  rw [Ref.row_pos h2, Ref.row_pos h2]
  intro h
  have := sortInput_inj argsort oneDim m grid pdf hi h
  simp only [List.cons.injEq, true_and] at this
  exact hne this

/-- **C126** The same for EnergyDispersionEstimator, whose result is a view of that view. -/
theorem C126_edisp (argsort : ND V → List ℕ) (oneDim : Bool) (inGrid : ND V → τ → Except Err Bool) (interp : PdfCls τ) (extrap : Option (PdfCls τ)) (axis : ℤ) (m : Mem V) (grid edges edisp : Ref)
    (hd : oneDim = false → grid.buf ≠ edisp.buf) (c : Mem V × Est τ) (hc : edispNew argsort oneDim inGrid interp extrap axis m grid edges edisp = .ok c) (s : State) (t : τ)
    (index : ND V → τ → Except Err ℕ) (idx : List ℕ) (v : V) (a : ND V) (hu : used inGrid interp extrap (s.mem.read c.2.grid) t = some (.nearest index))
    (ha : value (edispCall c.2 axis) s.mem t = .ok a) (hv : ND.Valid a.shape idx) :
    ∃ b, value (edispCall c.2 axis) (run (edispCall c.2 axis) s (spoil s.handles t idx v)).mem t = .ok b ∧ b.shape = a.shape ∧ b.get idx = v := by
  unfold edispNew at hc
  cases hs : edisp.swapaxes axis (-1) with
  | error e => rw [hs] at hc; cases hc
  | ok p =>
    rw [hs] at hc
    simp only [Except.ok.injEq] at hc
    subst hc
    rw [edispCall_value] at ha
    cases ha0 : value (pdfNew argsort oneDim inGrid interp extrap m grid edges p).2.call s.mem t with
    | error e => rw [ha0] at ha; cases ha
    | ok a0 =>
      rw [ha0] at ha
      simp only at ha
      obtain ⟨i, r, h1, h2, h3, h4⟩ := (uses_pdf argsort oneDim inGrid interp extrap m grid edges p s t index hu).call ha0
      have hb := sortInput_bufs argsort oneDim m grid p (fun h => by rw [Ref.swapaxes_buf hs]; exact hd h)
      rw [← Ref.row_buf h2] at hb
      subst h3
      cases hr : r.swapaxes (-1) axis with
      | error e =>
        rw [Ref.swapaxes_error s.mem hr] at ha
        cases ha
      | ok r' =>
        have := Ref.swapaxes_read s.mem hr
        rw [this] at ha
        cases ha
        have hcall : ∀ m' : Mem V, m'.read (sortInput argsort oneDim m grid p).2.1 = s.mem.read (sortInput argsort oneDim m grid p).2.1 →
            edispCall (pdfNew argsort oneDim inGrid interp extrap m grid edges p).2 axis m' t = (m', .ok r') := by
          intro m' hm'
          unfold edispCall
          rw [h4 m' hm']
          simp only [hr]
        rw [← Ref.swapaxes_buf hr] at hb
        obtain ⟨b, k1, k2, k3, -⟩ := view_spoiled hb hcall hv v
        exact ⟨b, k1, k2, k3⟩

/-! ## The hypotheses can be met -/

example : ∃ a, value (parametrizedNew (τ := Unit) (fun _ => [0, 1]) true (fun _ _ => .ok true) (.nearest fun _ _ => .ok 1) none exMem exGrid exParams).2.call
      (parametrizedNew (τ := Unit) (fun _ => [0, 1]) true (fun _ _ => .ok true) (.nearest fun _ _ => .ok 1) none exMem exGrid exParams).1 () = .ok a ∧ ND.Valid a.shape [0] :=
  ⟨_, rfl, by unfold ND.Valid; exact List.Forall₂.cons (by decide) List.Forall₂.nil⟩

example : ∃ a, value (parametrizedNew (τ := Unit) (fun _ => [0, 1]) false (fun _ _ => .ok false) (.compute fun _ p _ => p.row 0) (some (.nearest fun _ _ => .ok 1)) exMem exGrid exParams).2.call exMem () = .ok a ∧
    ND.Valid a.shape [0] ∧ used (τ := Unit) (γ := ParamCls Unit) (fun _ _ => .ok false) (ParamCls.compute fun _ p _ => p.row 0) (some (.nearest fun _ _ => .ok 1)) (exMem.read exGrid) () = some (.nearest fun _ _ => .ok 1) ∧
    exGrid.buf ≠ exParams.buf ∧ Function.Injective exParams.pos :=
  ⟨_, rfl, by unfold ND.Valid; exact List.Forall₂.cons (by decide) List.Forall₂.nil, rfl, by simp [exGrid, exParams], fun _ _ h => h⟩

example : ∃ a, value (pdfNew (τ := Unit) (fun _ => [0, 1]) false (fun _ _ => .ok true) (.nearest fun _ _ => .ok 1) none exMem exGrid exGrid exParams).2.call exMem () = .ok a ∧ ND.Valid a.shape [0] :=
  ⟨_, rfl, by unfold ND.Valid; exact List.Forall₂.cons (by decide) List.Forall₂.nil⟩

end Pyirf.Memory
