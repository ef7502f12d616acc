import Verif.Memory.HistoryProps

/-!
# C125: estimators of discrete PDFs and later changes of the caller's arrays
-/
set_option linter.unusedSectionVars false
set_option linter.unusedSimpArgs false

namespace Pyirf.Memory
open Pyirf Pyirf.Np Pyirf.Interpolation
variable {τ : Type}

/-! ## Specification -/

open Classical in
/-- The copy of the templates in which the nearly empty cells are overwritten. -/
noncomputable def blank (zero : ND V → List ℕ → Prop) (v : V) (a : ND V) : ND V := ⟨a.shape, fun idx => if ND.Valid a.shape idx ∧ zero a idx then v else a.get idx⟩

/-- What an inter- or extrapolator gives, with the bin edges it was constructed with, the values these edges have now, the grid points and the PDFs. -/
noncomputable def PdfCls.estimate : PdfCls τ → ND V → ND V → ND V → ND V → τ → Except Err (ND V)
  | .quantile extend ppfs f, edges0, _, g, p, t => f g (extend edges0) (ppfs edges0 p) t
  | .momentMorph inds zero v f, _, edges, g, p, t => match inds g t with
    | .error e => .error e
    | .ok is => f g edges (blank zero v (p.takeRows is)) t
  | .nearest index, _, _, g, p, t => match index g t with
    | .error e => .error e
    | .ok i => p.row i

/-- The estimate: the interpolator's inside the grid, the extrapolator's outside. -/
noncomputable def estimatePdf (inGrid : ND V → τ → Except Err Bool) (interp : PdfCls τ) (extrap : Option (PdfCls τ)) (edges0 edges g p : ND V) (t : τ) : Except Err (ND V) :=
  match inGrid g t with
  | .error e => .error e
  | .ok true => interp.estimate edges0 edges g p t
  | .ok false => match extrap with
    | none => .error .valueError
    | some x => x.estimate edges0 edges g p t

/-- not a nearest neighbor searcher -/
def PdfCls.computing : PdfCls τ → Prop
  | .nearest _ => False
  | _ => True

/-- a quantile interpolator -/
def PdfCls.isQuantile : PdfCls τ → Prop
  | .quantile _ _ _ => True
  | _ => False

/-! ## Proofs -/

/-- What is needed about an object: it depends on buffers that the caller cannot reach, and possibly on the edges. -/
structure Built (c : PdfCls τ) (o : Obj τ) (m : Mem V) (edges0 : ND V) (g e p : Ref) (D : List ℕ) : Prop where
  comp : o.method.computing
  reach : ∀ r ∈ o.stored, r = e ∨ r.buf ∈ D
  ok : ∀ m' : Mem V, m.next ≤ m'.next → (∀ b ∈ D, m'.data b = m.data b) → ∀ t, Obj.eval o.method (o.stored.map m'.read) t = c.estimate edges0 (m'.read e) (m.read g) (m.read p) t

theorem PdfCls.new_frame (c : PdfCls τ) (m : Mem V) (g e p : Ref) : m.next ≤ (c.new m g e p).1.next ∧ ∀ b < m.next, (c.new m g e p).1.data b = m.data b := by
  cases c with
  | quantile extend ppfs f =>
    refine ⟨?_, ?_⟩
    · show m.next ≤ m.next + 1 + 1; omega
    · intro b hb
      exact (data_alloc _ _ (Nat.lt_succ_of_lt hb)).trans (data_alloc _ _ hb)
  | momentMorph inds zero v f => exact ⟨le_refl _, fun _ _ => rfl⟩
  | nearest index => exact ⟨le_refl _, fun _ _ => rfl⟩

/-- the new buffers made at the construction of an object -/
def PdfCls.own (c : PdfCls τ) (m : Mem V) : List ℕ :=
  match c with
  | .quantile _ _ _ => [m.next, m.next + 1]
  | _ => []

theorem PdfCls.own_lt (c : PdfCls τ) (m : Mem V) (g e p : Ref) : ∀ b ∈ c.own m, m.next ≤ b ∧ b < (c.new m g e p).1.next := by
  intro b hb
  cases c with
  | quantile extend ppfs f =>
    have hb' : b ∈ [m.next, m.next + 1] := hb
    simp only [List.mem_cons, List.not_mem_nil, or_false] at hb'
    show m.next ≤ b ∧ b < m.next + 1 + 1
    omega
  | momentMorph inds zero v f => cases hb
  | nearest index => cases hb

theorem PdfCls.new_built (c : PdfCls τ) (hc : c.computing) (m : Mem V) (g e p : Ref) (he : e.buf < m.next) {D : List ℕ} (hg : g.buf ∈ D) (hp : p.buf ∈ D)
    (hD : ∀ b ∈ D, b < m.next) :
    Built c (c.new m g e p).2 (c.new m g e p).1 (m.read e) g e p (D ++ c.own m) := by
  cases c with
  | quantile extend ppfs f =>
    have hpl : p.buf < m.next := hD _ hp
    have hgl : g.buf < m.next := hD _ hg
    refine ⟨trivial, ?_, ?_⟩
    · intro r hr
      have hr' : r ∈ [g, (m.alloc (extend (m.read e))).2, ((m.alloc (extend (m.read e))).1.alloc (ppfs (m.read e) (m.read p))).2] := hr
      simp only [List.mem_cons, List.not_mem_nil, or_false] at hr'
      right
      rcases hr' with rfl | rfl | rfl
      · simp [hg]
      · simp [Mem.alloc, PdfCls.own]
      · simp [Mem.alloc, PdfCls.own]
    · intro m' hm' hd t
      show f (m'.read g) (m'.read (m.alloc (extend (m.read e))).2) (m'.read ((m.alloc (extend (m.read e))).1.alloc (ppfs (m.read e) (m.read p))).2) t = f _ _ _ t
      have q1 : m'.read (m.alloc (extend (m.read e))).2 = extend (m.read e) := by
        rw [read_congr (m' := ((PdfCls.quantile extend ppfs f).new m g e p).1) (hd _ (by simp [Mem.alloc, PdfCls.own]))]
        show ((m.alloc (extend (m.read e))).1.alloc (ppfs (m.read e) (m.read p))).1.read _ = _
        rw [Mem.read_alloc_old _ _ (by show m.next < m.next + 1; omega), Mem.read_alloc_new]
      have q2 : m'.read ((m.alloc (extend (m.read e))).1.alloc (ppfs (m.read e) (m.read p))).2 = ppfs (m.read e) (m.read p) := by
        rw [read_congr (m' := ((PdfCls.quantile extend ppfs f).new m g e p).1) (hd _ (by simp [Mem.alloc, PdfCls.own]))]
        exact Mem.read_alloc_new _ _
      have q3 : ((PdfCls.quantile extend ppfs f).new m g e p).1.read p = m.read p := by
        refine read_congr ?_
        exact ((PdfCls.quantile extend ppfs f).new_frame m g e p).2 _ hpl
      rw [q1, q2, q3, read_congr (m' := ((PdfCls.quantile extend ppfs f).new m g e p).1) (hd _ (by simp [hg]))]
  | momentMorph inds zero v f =>
    refine ⟨trivial, ?_, ?_⟩
    · intro r hr
      have hr' : r ∈ [g, e, p] := hr
      simp only [List.mem_cons, List.not_mem_nil, or_false] at hr'
      rcases hr' with rfl | rfl | rfl
      · right; simp [hg]
      · exact Or.inl rfl
      · right; simp [hp]
    · intro m' hm' hd t
      have q1 : m'.read g = m.read g := read_congr (hd _ (by simp [hg]))
      have q2 : m'.read p = m.read p := read_congr (hd _ (by simp [hp]))
      unfold PdfCls.new Obj.eval PdfCls.estimate
      simp only [List.map_cons, List.map_nil, List.getElem?_cons_succ, List.getElem?_cons_zero, q1, q2]
      cases inds (m.read g) t with
      | error err => rfl
      | ok is => rfl
  | nearest index => exact hc.elim

theorem Built.mono {c : PdfCls τ} {o : Obj τ} {m m2 : Mem V} {edges0 : ND V} {g e p : Ref} {D D2 : List ℕ} (h : Built c o m edges0 g e p D) (hn : m.next ≤ m2.next)
    (hd : ∀ b ∈ D, m2.data b = m.data b) (hg : g.buf ∈ D) (hp : p.buf ∈ D) (hs : ∀ b ∈ D, b ∈ D2) : Built c o m2 edges0 g e p D2 := by
  refine ⟨h.comp, fun r hr => (h.reach r hr).imp_right (hs _), ?_⟩
  intro m' hm' hd' t
  rw [h.ok m' (le_trans hn hm') (fun b hb => (hd' b (hs b hb)).trans (hd b hb)) t, read_congr (hd _ hg), read_congr (hd _ hp)]

/-- Everything about the construction on one-dimensional grids. -/
theorem pdfNew_one (argsort : ND V → List ℕ) (inGrid : ND V → τ → Except Err Bool) (interp : PdfCls τ) (hi : interp.computing) (extrap : Option (PdfCls τ)) (hx : ∀ x, extrap = some x → x.computing)
    (m : Mem V) (grid edges pdf : Ref) (he : edges.buf < m.next) :
    ∃ D : List ℕ, (∀ b ∈ D, m.next ≤ b ∧ b < (pdfNew argsort true inGrid interp extrap m grid edges pdf).1.next) ∧
      m.next ≤ (pdfNew argsort true inGrid interp extrap m grid edges pdf).1.next ∧
      (∀ b < m.next, (pdfNew argsort true inGrid interp extrap m grid edges pdf).1.data b = m.data b) ∧
      FreshCall (pdfNew argsort true inGrid interp extrap m grid edges pdf).2.call ∧
      ∀ m' : Mem V, (pdfNew argsort true inGrid interp extrap m grid edges pdf).1.next ≤ m'.next →
        (∀ b ∈ D, m'.data b = (pdfNew argsort true inGrid interp extrap m grid edges pdf).1.data b) → ∀ t,
        value (pdfNew argsort true inGrid interp extrap m grid edges pdf).2.call m' t =
          estimatePdf inGrid interp extrap (m.read edges) (m'.read edges) ((m.read grid).takeRows (argsort (m.read grid))) ((m.read pdf).takeRows (argsort (m.read grid))) t := by
  obtain ⟨h1, h2, h3, h4, h5, h6⟩ := sortInput_one argsort m grid pdf
  generalize hs : sortInput argsort true m grid pdf = s at h1 h2 h3 h4 h5 h6
  have hg : s.2.1.buf ∈ [m.next, m.next + 1] := by simp [h2]
  have hp : s.2.2.buf ∈ [m.next, m.next + 1] := by simp [h3]
  have hD0 : ∀ b ∈ [m.next, m.next + 1], m.next ≤ b ∧ b < s.1.next := by
    intro b hb
    simp only [List.mem_cons, List.not_mem_nil, or_false] at hb
    omega
  have heq : s.1.read edges = m.read edges := read_congr (h4 _ he)
  have bi := interp.new_built hi s.1 s.2.1 edges s.2.2 (by omega) hg hp (fun b hb => (hD0 b hb).2)
  have fi := interp.new_frame s.1 s.2.1 edges s.2.2
  rw [heq] at bi
  have hri : (interp.new s.1 s.2.1 edges s.2.2).1.read s.2.1 = s.1.read s.2.1 := read_congr (fi.2 _ (by omega))
  have hrp : (interp.new s.1 s.2.1 edges s.2.2).1.read s.2.2 = s.1.read s.2.2 := read_congr (fi.2 _ (by omega))
  have hDi : ∀ b ∈ [m.next, m.next + 1] ++ interp.own s.1, m.next ≤ b ∧ b < (interp.new s.1 s.2.1 edges s.2.2).1.next := by
    intro b hb
    rw [List.mem_append] at hb
    rcases hb with hb | hb
    · have := hD0 b hb; have := fi.1; omega
    · have := interp.own_lt s.1 s.2.1 edges s.2.2 b hb; omega
  cases extrap with
  | none =>
    have hdef : pdfNew argsort true inGrid interp none m grid edges pdf = ((interp.new s.1 s.2.1 edges s.2.2).1, ⟨s.2.1, inGrid, (interp.new s.1 s.2.1 edges s.2.2).2, none⟩) := by
      unfold pdfNew
      rw [hs]
    rw [hdef]
    refine ⟨[m.next, m.next + 1] ++ interp.own s.1, hDi, ?_, ?_, ?_, ?_⟩
    · show m.next ≤ (interp.new s.1 s.2.1 edges s.2.2).1.next
      have := fi.1; omega
    · intro b hb
      exact (fi.2 b (by omega)).trans (h4 b hb)
    · exact Est.freshCall _ bi.comp (fun x hx' => by cases hx')
    · intro m' hm' hd t
      have hmg : m'.read s.2.1 = (m.read grid).takeRows (argsort (m.read grid)) := by
        rw [read_congr (hd s.2.1.buf (List.mem_append_left _ hg)), hri, h5]
      refine (Est.value_eq _ m' t ?_ (fun x hx' => by cases hx')).trans ?_
      · intro r hr
        rcases bi.reach r hr with h | h
        · rw [h]; have := fi.1; simp only at hm'; omega
        · have := hDi _ h; simp only at hm'; omega
      · unfold estimatePdf
        simp only [hmg]
        rw [bi.ok m' hm' hd t, hri, hrp, h5, h6]
        rcases inGrid ((m.read grid).takeRows (argsort (m.read grid))) t with e | (_ | _) <;> rfl
  | some x =>
    have fx := x.new_frame (interp.new s.1 s.2.1 edges s.2.2).1 s.2.1 edges s.2.2
    have bx := x.new_built (hx x rfl) (interp.new s.1 s.2.1 edges s.2.2).1 s.2.1 edges s.2.2 (by have := fi.1; omega)
      (List.mem_append_left (interp.own s.1) hg) (List.mem_append_left (interp.own s.1) hp) (fun b hb => (hDi b hb).2)
    have heq2 : (interp.new s.1 s.2.1 edges s.2.2).1.read edges = m.read edges := (read_congr (fi.2 _ (by omega))).trans heq
    rw [heq2] at bx
    set j := (interp.new s.1 s.2.1 edges s.2.2) with hj
    set y := x.new j.1 s.2.1 edges s.2.2 with hy
    have bi2 := bi.mono (D2 := ([m.next, m.next + 1] ++ interp.own s.1) ++ x.own j.1) fx.1 (fun b hb => fx.2 b (hDi b hb).2) (List.mem_append_left _ hg) (List.mem_append_left _ hp)
      (fun b hb => List.mem_append_left _ hb)
    have hdef : pdfNew argsort true inGrid interp (some x) m grid edges pdf = (y.1, ⟨s.2.1, inGrid, j.2, some y.2⟩) := by
      unfold pdfNew
      rw [hs]
    have hry : y.1.read s.2.1 = s.1.read s.2.1 := (read_congr (fx.2 _ (by have := fi.1; omega))).trans hri
    have hrq : y.1.read s.2.2 = s.1.read s.2.2 := (read_congr (fx.2 _ (by have := fi.1; omega))).trans hrp
    have hDx : ∀ b ∈ ([m.next, m.next + 1] ++ interp.own s.1) ++ x.own j.1, m.next ≤ b ∧ b < y.1.next := by
      intro b hb
      rw [List.mem_append] at hb
      rcases hb with hb | hb
      · have := hDi b hb; have := fx.1; omega
      · have h8 := x.own_lt j.1 s.2.1 edges s.2.2 b hb
        have h7 := fi.1
        rw [← hy] at h8
        omega
    rw [hdef]
    refine ⟨_, hDx, ?_, ?_, ?_, ?_⟩
    · have h7 := fi.1
      have h8 := fx.1
      simp only
      omega
    · intro b hb
      exact (fx.2 b (by have := fi.1; omega)).trans ((fi.2 b (by omega)).trans (h4 b hb))
    · exact Est.freshCall _ bi2.comp (fun x' hx' => by cases hx'; exact bx.comp)
    · intro m' hm' hd t
      have hlt : edges.buf < m'.next := by have h7 := fi.1; have h8 := fx.1; simp only at hm'; omega
      have hmg : m'.read s.2.1 = (m.read grid).takeRows (argsort (m.read grid)) := by
        rw [read_congr (hd s.2.1.buf (List.mem_append_left _ (List.mem_append_left _ hg))), hry, h5]
      refine (Est.value_eq _ m' t ?_ ?_).trans ?_
      · intro r hr
        rcases bi2.reach r hr with h | h
        · rw [h]; exact hlt
        · have := hDx _ h; simp only at hm'; omega
      · intro x' hx' r hr
        cases hx'
        rcases bx.reach r hr with h | h
        · rw [h]; exact hlt
        · have := hDx _ h; simp only at hm'; omega
      · unfold estimatePdf
        simp only [hmg]
        rw [bi2.ok m' hm' hd t, bx.ok m' hm' hd t, hry, hrq, h5, h6]
        rcases inGrid ((m.read grid).takeRows (argsort (m.read grid))) t with e | (_ | _) <;> rfl

/-- **C125** Estimators of discrete PDFs on one-dimensional grids (no nearest neighbor searcher), after any writes of the caller into any arrays, the estimates included, and any calls: a call gives the estimate for the grid
points and PDFs (sorted) as they were at the construction - but for the bin edges as they are now in the classes that use moment morphing. -/
theorem C125_pdf_1d (argsort : ND V → List ℕ) (inGrid : ND V → τ → Except Err Bool) (interp : PdfCls τ) (hi : interp.computing) (extrap : Option (PdfCls τ)) (hx : ∀ x, extrap = some x → x.computing)
    (m : Mem V) (grid edges pdf : Ref) (he : edges.buf < m.next) (handles : List Ref) (hh : Known m handles) (prog : List (Step τ)) (t : τ) :
    let c := pdfNew argsort true inGrid interp extrap m grid edges pdf
    value c.2.call (run c.2.call ⟨c.1, handles⟩ prog).mem t = estimatePdf inGrid interp extrap (m.read edges) ((run c.2.call ⟨c.1, handles⟩ prog).mem.read edges)
      ((m.read grid).takeRows (argsort (m.read grid))) ((m.read pdf).takeRows (argsort (m.read grid))) t := by
  intro c
  obtain ⟨D, hD, hn, hk, hf, hv⟩ := pdfNew_one argsort inGrid interp hi extrap hx m grid edges pdf he
  have hr := hf.run (D := D) ⟨c.1, handles⟩ (fun b hb => (hD b hb).2)
    (by
      intro r hr
      have h1 := hh r hr
      exact ⟨lt_of_lt_of_le h1 hn, fun h2 => by have := (hD _ h2).1; omega⟩) prog
  exact hv _ hr.1 hr.2.1 t

theorem estimatePdf_quantile (inGrid : ND V → τ → Except Err Bool) (interp : PdfCls τ) (hi : interp.isQuantile) (extrap : Option (PdfCls τ)) (hx : ∀ x, extrap = some x → x.isQuantile)
    (edges0 edges edges' g p : ND V) (t : τ) : estimatePdf inGrid interp extrap edges0 edges g p t = estimatePdf inGrid interp extrap edges0 edges' g p t := by
  have key : ∀ c : PdfCls τ, c.isQuantile → c.estimate edges0 edges g p t = c.estimate edges0 edges' g p t := by
    intro c hc
    cases c with
    | quantile extend ppfs f => rfl
    | momentMorph inds zero v f => exact hc.elim
    | nearest index => exact hc.elim
  unfold estimatePdf
  cases inGrid g t with
  | error e => rfl
  | ok b =>
    cases b with
    | true => exact key interp hi
    | false =>
      cases extrap with
      | none => rfl
      | some x => exact key x (hx x rfl)

/-- **C125** With the quantile interpolator, estimates on one-dimensional grids are independent of everything the caller does after the construction. -/
theorem C125_quantile_1d (argsort : ND V → List ℕ) (inGrid : ND V → τ → Except Err Bool) (interp : PdfCls τ) (hi : interp.isQuantile) (m : Mem V) (grid edges pdf : Ref)
    (he : edges.buf < m.next) (handles : List Ref) (hh : Known m handles) :
    let c := pdfNew argsort true inGrid interp none m grid edges pdf
    HistoryIndependent c.2.call ⟨c.1, handles⟩ := by
  intro c prog t
  have hc : interp.computing := by
    cases interp with
    | quantile extend ppfs f => trivial
    | momentMorph inds zero v f => trivial
    | nearest index => exact hi.elim
  have h := C125_pdf_1d argsort inGrid interp hc none (fun x hx => by cases hx) m grid edges pdf he handles hh
  refine (h prog t).trans ((estimatePdf_quantile inGrid interp hi none (fun x hx => by cases hx) _ _ _ _ _ t).trans (h [] t).symm)

/-- **C125** As long as the caller leaves the bin edges alone, the estimates of all estimators of discrete PDFs (no nearest neighbor searcher) on one-dimensional grids are independent of everything else. -/
theorem C125_edges_kept_1d (argsort : ND V → List ℕ) (inGrid : ND V → τ → Except Err Bool) (interp : PdfCls τ) (hi : interp.computing) (extrap : Option (PdfCls τ)) (hx : ∀ x, extrap = some x → x.computing)
    (m : Mem V) (grid edges pdf : Ref) (he : edges.buf < m.next) (handles : List Ref) (hh : Known m handles) (heh : Unreachable handles edges) :
    let c := pdfNew argsort true inGrid interp extrap m grid edges pdf
    HistoryIndependent c.2.call ⟨c.1, handles⟩ := by
  intro c prog t
  obtain ⟨D, hD, hn, hk, hf, hv⟩ := pdfNew_one argsort inGrid interp hi extrap hx m grid edges pdf he
  have hr := hf.run (D := [edges.buf]) ⟨c.1, handles⟩ (by intro b hb; rw [List.mem_singleton] at hb; rw [hb]; exact lt_of_lt_of_le he hn)
    (by
      intro r hr
      exact ⟨lt_of_lt_of_le (hh r hr) hn, by rw [List.mem_singleton]; exact heh r hr⟩) prog
  refine (C125_pdf_1d argsort inGrid interp hi extrap hx m grid edges pdf he handles hh prog t).trans ?_
  rw [read_congr (hr.2.1 edges.buf (by simp))]
  exact (C125_pdf_1d argsort inGrid interp hi extrap hx m grid edges pdf he handles hh [] t).symm

/-! ## EnergyDispersionEstimator -/

theorem edispCall_value (e : Est τ) (axis : ℤ) (m : Mem V) (t : τ) : value (edispCall e axis) m t = match value e.call m t with
    | .error err => .error err
    | .ok a => a.swapaxes (-1) axis := by
  unfold value edispCall
  rcases h : e.call m t with ⟨m', r⟩
  cases r with
  | error err => rfl
  | ok r =>
    simp only
    cases hs : r.swapaxes (-1) axis with
    | error err => exact (Ref.swapaxes_error m' hs).symm
    | ok r' => exact (Ref.swapaxes_read m' hs).symm

theorem edispCall_fresh {e : Est τ} (h : FreshCall e.call) (axis : ℤ) : FreshCall (edispCall e axis) := by
  have h0 : ∀ m t, (edispCall e axis m t).1 = (e.call m t).1 := by
    intro m t
    unfold edispCall
    rcases e.call m t with ⟨m', r⟩
    cases r <;> rfl
  refine ⟨⟨?_, ?_⟩, ?_⟩
  · intro m t; rw [h0]; exact h.mono m t
  · intro m t b hb; rw [h0]; exact h.keep m t b hb
  · intro m t r hr
    have h1 := h.fresh m t
    rw [h0]
    unfold edispCall at hr
    rcases hc : e.call m t with ⟨m', q⟩
    rw [hc] at hr h1
    cases q with
    | error err => cases hr
    | ok q =>
      rw [Ref.swapaxes_buf hr]
      exact h1 q rfl

/-- **C125** EnergyDispersionEstimator on one-dimensional grids (no nearest neighbor searcher): the same, for the migration matrices with the migration axis last; the axis is put back in the result. -/
theorem C125_edisp_1d (argsort : ND V → List ℕ) (inGrid : ND V → τ → Except Err Bool) (interp : PdfCls τ) (hi : interp.computing) (extrap : Option (PdfCls τ)) (hx : ∀ x, extrap = some x → x.computing)
    (axis : ℤ) (m : Mem V) (grid edges edisp : Ref) (he : edges.buf < m.next) (handles : List Ref) (hh : Known m handles) (c : Mem V × Est τ)
    (hc : edispNew argsort true inGrid interp extrap axis m grid edges edisp = .ok c) (prog : List (Step τ)) (t : τ) :
    ∃ last, (m.read edisp).swapaxes axis (-1) = .ok last ∧
    value (edispCall c.2 axis) (run (edispCall c.2 axis) ⟨c.1, handles⟩ prog).mem t =
      match estimatePdf inGrid interp extrap (m.read edges) ((run (edispCall c.2 axis) ⟨c.1, handles⟩ prog).mem.read edges)
        ((m.read grid).takeRows (argsort (m.read grid))) (last.takeRows (argsort (m.read grid))) t with
      | .error e => .error e
      | .ok a => a.swapaxes (-1) axis := by
  unfold edispNew at hc
  cases hs : edisp.swapaxes axis (-1) with
  | error e => rw [hs] at hc; cases hc
  | ok p =>
    rw [hs] at hc
    simp only [Except.ok.injEq] at hc
    obtain ⟨D, hD, hn, hk, hf, hv⟩ := pdfNew_one argsort inGrid interp hi extrap hx m grid edges p he
    rw [hc] at hD hn hk hf hv
    have hr := (edispCall_fresh hf axis).run (D := D) ⟨c.1, handles⟩ (fun b hb => (hD b hb).2)
      (by
        intro r hr
        have h1 := hh r hr
        exact ⟨lt_of_lt_of_le h1 hn, fun h2 => by have := (hD _ h2).1; omega⟩) prog
    refine ⟨m.read p, Ref.swapaxes_read m hs, ?_⟩
    rw [edispCall_value, hv _ hr.1 hr.2.1 t]

/-! ## The hypotheses can be met -/

/-- a quantile interpolator, a moment morph interpolator and a memory with edges the caller cannot reach -/
example (f : ND V → ND V → ND V → Unit → Except Err (ND V)) : (PdfCls.quantile (fun e => e) (fun _ p => p) f).isQuantile ∧ (PdfCls.quantile (fun e => e) (fun _ p => p) f).computing ∧
    (PdfCls.momentMorph (fun _ _ => .ok [0, 1]) (fun _ _ => False) (.fin 1) f).computing ∧ exParams.buf < exMem.next ∧ Known exMem [exGrid] ∧ Unreachable [exGrid] exParams := by
  refine ⟨trivial, trivial, trivial, by simp [exMem, exParams], ?_, ?_⟩
  · intro r hr; simp at hr; subst hr; simp [exMem, exGrid]
  · intro r hr; simp at hr; subst hr; simp [exGrid, exParams]

/-- migration matrices with the axis 0 -/
example (f : ND V → ND V → ND V → Unit → Except Err (ND V)) :
    ∃ c, edispNew (fun _ => [0, 1]) true (fun _ (_ : Unit) => .ok true) (.momentMorph (fun _ _ => .ok [0, 1]) (fun _ _ => False) (.fin 1) f) none 1 exMem exGrid exGrid exParams = .ok c := ⟨_, rfl⟩

/-- deviation: with moment morphing the estimates follow later changes of the caller's bin edges -/
example : ¬ HistoryIndependent (pdfNew (τ := Unit) (fun _ => [0, 1]) true (fun _ _ => .ok true) (.momentMorph (fun _ _ => .ok [0, 1]) (fun _ _ => False) (.fin 1) fun _ e _ _ => .ok e) none exMem exGrid exGrid
    exParams).2.call ⟨(pdfNew (τ := Unit) (fun _ => [0, 1]) true (fun _ _ => .ok true) (.momentMorph (fun _ _ => .ok [0, 1]) (fun _ _ => False) (.fin 1) fun _ e _ _ => .ok e) none exMem exGrid exGrid
    exParams).1, [exGrid]⟩ := by
  intro h
  have h0 := h [.write 0 [0, 0] .nan] ()
  have hk : Known exMem [exGrid] := by intro r hr; simp at hr; subst hr; simp [exMem, exGrid]
  have key := fun prog => C125_pdf_1d (τ := Unit) (fun _ => [0, 1]) (fun _ _ => .ok true) (.momentMorph (fun _ _ => .ok [0, 1]) (fun _ _ => False) (.fin 1) fun _ e _ _ => .ok e) trivial none
    (fun x hx => by cases hx) exMem exGrid exGrid exParams (by simp [exMem, exGrid]) [exGrid] hk prog ()
  have h1 := (key [.write 0 [0, 0] .nan]).symm.trans (h0.trans (key []))
  simp only [estimatePdf, PdfCls.estimate, Except.ok.injEq] at h1
  have h2 := congrArg (fun a => a.get [0, 0]) h1
  have hv : ND.Valid exGrid.shape [0, 0] := by unfold exGrid ND.Valid; simp
  have h3 := Mem.read_write_self (pdfNew (τ := Unit) (fun _ => [0, 1]) true (fun _ _ => .ok true) (.momentMorph (fun _ _ => .ok [0, 1]) (fun _ _ => False) (.fin 1) fun _ e _ _ => .ok e) none exMem
    exGrid exGrid exParams).1 exGrid [0, 0] .nan hv
  have h4 := h3.symm.trans h2
  have h5 : FV.nan = FV.fin (0 : ℝ) := by
    refine h4.trans ?_
    show exMem.data 0 [0, 0] = _
    simp [exMem]
  cases h5

end Pyirf.Memory
