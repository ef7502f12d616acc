import Verif.Memory.Model

/-!
# Lemmas for the memory model
-/
set_option linter.unusedSectionVars false
set_option linter.unusedSimpArgs false

namespace Pyirf.Memory
open Pyirf Pyirf.Np Pyirf.Interpolation
variable {τ : Type}

/-- A call operator that does not change the buffers that exist before. -/
structure Frame (call : Mem V → τ → Mem V × Except Err Ref) : Prop where
  mono : ∀ m t, m.next ≤ (call m t).1.next
  keep : ∀ m t b, b < m.next → (call m t).1.data b = m.data b

/-- A call operator that moreover returns arrays on new buffers. -/
structure FreshCall (call : Mem V → τ → Mem V × Except Err Ref) : Prop extends Frame call where
  fresh : ∀ m t r, (call m t).2 = .ok r → m.next ≤ r.buf ∧ r.buf < (call m t).1.next

theorem read_congr {m m' : Mem V} {r : Ref} (h : m.data r.buf = m'.data r.buf) : m.read r = m'.read r := by
  unfold Mem.read
  rw [h]

theorem data_alloc (m : Mem V) (a : ND V) {b : ℕ} (h : b < m.next) : (m.alloc a).1.data b = m.data b := by
  unfold Mem.alloc
  simp only [if_neg (Nat.ne_of_lt h)]

theorem data_writeWhere (m : Mem V) (r : Ref) (cond : List ℕ → Prop) (v : V) {b : ℕ} (h : b ≠ r.buf) : (m.writeWhere r cond v).data b = m.data b := by
  unfold Mem.writeWhere
  simp [h]

theorem data_modify (m : Mem V) (r : Ref) (f : V → V) {b : ℕ} (h : b ≠ r.buf) : (m.modify r f).data b = m.data b := by
  unfold Mem.modify
  simp [h]

theorem data_write (m : Mem V) (r : Ref) (idx : List ℕ) (v : V) {b : ℕ} (h : b ≠ r.buf) : (m.write r idx v).data b = m.data b := by
  unfold Mem.write
  split
  · simp [h]
  · rfl

open Classical in
/-- What a call computes from the values of the stored arrays. -/
noncomputable def Obj.eval (me : Method τ) (l : List (ND V)) (t : τ) : Except Err (ND V) :=
  match me with
  | .compute f => f l t
  | .scratch k inds zero v f => match inds l t with
    | .error e => .error e
    | .ok is => match l[k]? with
      | none => .error .attributeError
      | some a => f l ⟨(a.takeRows is).shape, fun idx => if ND.Valid (a.takeRows is).shape idx ∧ zero (a.takeRows is) idx then v else (a.takeRows is).get idx⟩ t
  | .nearest k index => match index l t with
    | .error e => .error e
    | .ok i => match l[k]? with
      | none => .error .attributeError
      | some a => a.row i

theorem read_writeWhere_alloc (m : Mem V) (a : ND V) (cond : List ℕ → Prop) (v : V) :
    ((m.alloc a).1.writeWhere (m.alloc a).2 cond v).read (m.alloc a).2 =
      ⟨a.shape, fun idx => open Classical in if ND.Valid a.shape idx ∧ cond idx then v else a.get idx⟩ := by
  unfold Mem.read Mem.writeWhere Mem.alloc
  simp only [id, ND.mk.injEq, true_and, if_true]
  funext idx
  by_cases h : ND.Valid a.shape idx ∧ cond idx
  · rw [if_pos h, if_pos ⟨rfl, idx, h.1, h.2, rfl⟩]
  · rw [if_neg h, if_neg (by rintro ⟨_, i, h1, h2, rfl⟩; exact h ⟨h1, h2⟩)]

theorem getElem?_map_read (l : List Ref) (m : Mem V) (k : ℕ) : (l.map m.read)[k]? = (l[k]?).map m.read := by simp

/-- The value of a call is a function of the values of the stored arrays. -/
theorem Obj.value_eq (o : Obj τ) (m : Mem V) (t : τ) (hs : ∀ r ∈ o.stored, r.buf < m.next) : value o.call m t = Obj.eval o.method (o.stored.map m.read) t := by
  unfold value Obj.call Obj.eval
  cases o.method with
  | compute f =>
    simp only
    cases f (o.stored.map m.read) t with
    | error e => rfl
    | ok a => simp only [Mem.read_alloc_new]
  | scratch k inds zero v f =>
    simp only
    cases inds (o.stored.map m.read) t with
    | error e => rfl
    | ok l =>
      simp only [getElem?_map_read]
      cases hk : o.stored[k]? with
      | none => rfl
      | some r =>
        simp only [Option.map_some]
        have h1 : o.stored.map ((m.alloc ((m.read r).takeRows l)).1.writeWhere (m.alloc ((m.read r).takeRows l)).2
            (zero ((m.alloc ((m.read r).takeRows l)).1.read (m.alloc ((m.read r).takeRows l)).2)) v).read = o.stored.map m.read := by
          apply List.map_congr_left
          intro r' hr'
          rw [Mem.read_writeWhere_other _ _ _ (by unfold Mem.alloc; exact Nat.ne_of_lt (hs r' hr')), Mem.read_alloc_old _ _ (hs r' hr')]
        rw [h1, read_writeWhere_alloc, Mem.read_alloc_new]
        generalize f (o.stored.map m.read) _ t = q
        cases q with
        | error e => rfl
        | ok a => simp only [Mem.read_alloc_new]
  | nearest k index =>
    simp only
    cases index (o.stored.map m.read) t with
    | error e => rfl
    | ok i =>
      simp only [getElem?_map_read]
      cases o.stored[k]? with
      | none => rfl
      | some r =>
        simp only [Option.map_some]
        cases hr : r.row i with
        | error e => rw [Ref.row_error m hr]
        | ok r' => rw [Ref.row_read m hr]

/-- The method is no nearest neighbor search. -/
def Method.computing : Method τ → Prop
  | .nearest _ _ => False
  | _ => True

theorem Obj.frame (o : Obj τ) : Frame o.call := by
  refine ⟨?_, ?_⟩
  · intro m t
    unfold Obj.call
    split
    · split
      · exact le_refl _
      · unfold Mem.alloc; simp
    · split
      · exact le_refl _
      · split
        · exact le_refl _
        · simp only
          split
          · unfold Mem.writeWhere Mem.alloc; simp
          · unfold Mem.writeWhere Mem.alloc; simp only; omega
    · split
      · exact le_refl _
      · split <;> exact le_refl _
  · intro m t b hb
    unfold Obj.call
    split
    · split
      · rfl
      · exact data_alloc m _ hb
    · split
      · rfl
      · split
        · rfl
        · simp only
          split
          · rw [data_writeWhere _ _ _ _ (by unfold Mem.alloc; exact Nat.ne_of_lt hb), data_alloc m _ hb]
          · rw [data_alloc _ _ (by rw [Mem.next_writeWhere]; unfold Mem.alloc; exact Nat.lt_succ_of_lt hb),
              data_writeWhere _ _ _ _ (by unfold Mem.alloc; exact Nat.ne_of_lt hb), data_alloc m _ hb]
    · split
      · rfl
      · split <;> rfl

theorem Obj.freshCall (o : Obj τ) (hm : o.method.computing) : FreshCall o.call := by
  refine ⟨o.frame, ?_⟩
  intro m t r hr
  unfold Obj.call at hr ⊢
  split at hr
  · split at hr
    · cases hr
    · rename_i heq
      cases hr
      simp only [heq]
      unfold Mem.alloc
      simp
  · split at hr
    · cases hr
    · rename_i heq
      split at hr
      · cases hr
      · rename_i heq2
        simp only at hr
        split at hr
        · cases hr
        · rename_i heq3
          cases hr
          simp only [heq, heq2, heq3]
          unfold Mem.alloc Mem.writeWhere
          simp
  · rename_i hmeth
    rw [hmeth] at hm
    exact hm.elim

theorem Obj.pos_id (o : Obj τ) (hm : o.method.computing) (m : Mem V) (t : τ) (r : Ref) (hr : (o.call m t).2 = .ok r) : r.pos = id := by
  unfold Obj.call at hr
  split at hr
  · split at hr
    · cases hr
    · cases hr; rfl
  · split at hr
    · cases hr
    · split at hr
      · cases hr
      · simp only at hr
        split at hr
        · cases hr
        · cases hr; rfl
  · rename_i hmeth
    rw [hmeth] at hm
    exact hm.elim

theorem Est.frame (e : Est τ) : Frame e.call := by
  refine ⟨?_, ?_⟩
  · intro m t
    unfold Est.call
    split
    · exact le_refl _
    · exact e.interp.frame.mono m t
    · split
      · rename_i x hx'; exact x.frame.mono m t
      · exact le_refl _
  · intro m t b hb
    unfold Est.call
    split
    · rfl
    · exact e.interp.frame.keep m t b hb
    · split
      · rename_i x hx'; exact x.frame.keep m t b hb
      · rfl

theorem Est.freshCall (e : Est τ) (hi : e.interp.method.computing) (hx : ∀ x, e.extrap = some x → x.method.computing) : FreshCall e.call := by
  refine ⟨e.frame, ?_⟩
  intro m t r
  unfold Est.call
  split
  · intro h; cases h
  · exact (e.interp.freshCall hi).fresh m t r
  · split
    · rename_i x hx'; exact (x.freshCall (hx x hx')).fresh m t r
    · intro h; cases h

theorem Est.pos_id (e : Est τ) (hi : e.interp.method.computing) (hx : ∀ x, e.extrap = some x → x.method.computing) (m : Mem V) (t : τ) (r : Ref)
    (hr : (e.call m t).2 = .ok r) : r.pos = id := by
  unfold Est.call at hr
  split at hr
  · cases hr
  · exact e.interp.pos_id hi m t r hr
  · split at hr
    · rename_i x hx'; exact x.pos_id (hx x hx') m t r hr
    · cases hr

/-- The value of a call as a function of the present values of the stored arrays. -/
theorem Est.value_eq (e : Est τ) (m : Mem V) (t : τ) (hi : ∀ r ∈ e.interp.stored, r.buf < m.next) (hx : ∀ x, e.extrap = some x → ∀ r ∈ x.stored, r.buf < m.next) :
    value e.call m t = match e.inGrid (m.read e.grid) t with
      | .error err => .error err
      | .ok true => Obj.eval e.interp.method (e.interp.stored.map m.read) t
      | .ok false => match e.extrap with
        | none => .error .valueError
        | some x => Obj.eval x.method (x.stored.map m.read) t := by
  have h1 := e.interp.value_eq m t hi
  unfold value at h1
  unfold value Est.call
  cases e.inGrid (m.read e.grid) t with
  | error err => rfl
  | ok b =>
    cases b with
    | true => exact h1
    | false =>
      cases hxe : e.extrap with
      | none => rfl
      | some x =>
        have h2 := x.value_eq m t (hx x hxe)
        unfold value at h2
        exact h2

/-- Buffers the caller cannot reach keep their contents in every history. -/
theorem FreshCall.run {call : Mem V → τ → Mem V × Except Err Ref} {D : List ℕ} (hc : FreshCall call) (s : State) (hD : ∀ b ∈ D, b < s.mem.next)
    (hh : ∀ r ∈ s.handles, r.buf < s.mem.next ∧ r.buf ∉ D) (prog : List (Step τ)) :
    s.mem.next ≤ (run call s prog).mem.next ∧ (∀ b ∈ D, (run call s prog).mem.data b = s.mem.data b) ∧
      ∀ r ∈ (run call s prog).handles, r.buf < (run call s prog).mem.next ∧ r.buf ∉ D := by
  induction prog generalizing s with
  | nil => exact ⟨le_refl _, fun _ _ => rfl, hh⟩
  | cons a prog ih =>
    have hstep : s.mem.next ≤ (step call s a).mem.next ∧ (∀ b ∈ D, (step call s a).mem.data b = s.mem.data b) ∧
        ∀ r ∈ (step call s a).handles, r.buf < (step call s a).mem.next ∧ r.buf ∉ D := by
      cases a with
      | write k idx v =>
        unfold step
        simp only
        split
        · exact ⟨le_refl _, fun _ _ => rfl, hh⟩
        · rename_i r hr
          refine ⟨by rw [Mem.next_write], ?_, ?_⟩
          · intro b hb
            exact data_write _ _ _ _ fun e => (hh r (List.mem_of_getElem? hr)).2 (e ▸ hb)
          · intro r' hr'
            simp only [Mem.next_write]
            exact hh r' hr'
      | call t =>
        have h1 := hc.mono s.mem t
        have h2 := hc.keep s.mem t
        have h3 := hc.fresh s.mem t
        unfold step
        simp only
        split
        · rename_i m r heq
          rw [heq] at h1 h2 h3
          refine ⟨h1, fun b hb => h2 b (hD b hb), ?_⟩
          intro r' hr'
          simp only [List.mem_append, List.mem_singleton] at hr'
          rcases hr' with hr' | rfl
          · exact ⟨lt_of_lt_of_le (hh r' hr').1 h1, (hh r' hr').2⟩
          · have := h3 _ rfl
            exact ⟨this.2, fun hmem => absurd (hD _ hmem) (by omega)⟩
        · rename_i m e heq
          rw [heq] at h1 h2
          refine ⟨h1, fun b hb => h2 b (hD b hb), ?_⟩
          intro r' hr'
          exact ⟨lt_of_lt_of_le (hh r' hr').1 h1, (hh r' hr').2⟩
    have := ih (step call s a) (fun b hb => lt_of_lt_of_le (hD b hb) hstep.1) hstep.2.2
    unfold Pyirf.Memory.run at this ⊢
    simp only [List.foldl_cons]
    exact ⟨le_trans hstep.1 this.1, fun b hb => (this.2.1 b hb).trans (hstep.2.1 b hb), this.2.2⟩

end Pyirf.Memory
