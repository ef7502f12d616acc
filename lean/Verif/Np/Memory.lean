import Verif.Np.ND

/-!
# numpy contract: array objects in memory

Two array objects can share their memory. A buffer holds numbers at positions; an array object is a buffer with a shape and the position of each of its
elements. Contract of numpy used here: indexing with integers and slices, `np.newaxis`, `reshape` and `swapaxes` give array objects on the same buffer (views);
indexing with an integer array and all computations give array objects on a new buffer; assignments to elements change the buffer.
-/
set_option linter.unusedSectionVars false

namespace Pyirf.Np

/-- The memory: what every buffer holds at every position, and the number of buffers in use. -/
structure Mem (α : Type) where
  data : ℕ → List ℕ → α
  next : ℕ

/-- An array object. -/
structure Ref where
  /-- the buffer -/
  buf : ℕ
  /-- `a.shape` -/
  shape : List ℕ
  /-- the position of the element with a given index -/
  pos : List ℕ → List ℕ

namespace Mem
variable {α : Type}

/-- The values an array object has now. -/
def read (m : Mem α) (r : Ref) : ND α := ⟨r.shape, fun idx => m.data r.buf (r.pos idx)⟩

/-- A computation that gives a new array. -/
def alloc (m : Mem α) (a : ND α) : Mem α × Ref :=
  (⟨fun b => if b = m.next then a.get else m.data b, m.next + 1⟩, ⟨m.next, a.shape, id⟩)

open Classical in
/-- `r[idx] = v` (IndexError without effect for an invalid index) -/
noncomputable def write (m : Mem α) (r : Ref) (idx : List ℕ) (v : α) : Mem α :=
  if ND.Valid r.shape idx then ⟨fun b p => if b = r.buf ∧ p = r.pos idx then v else m.data b p, m.next⟩ else m

open Classical in
/-- `f(r, out=r)` and `r[condition(r)] = v`: every element is replaced by a function of itself. -/
noncomputable def modify (m : Mem α) (r : Ref) (f : α → α) : Mem α :=
  ⟨fun b p => if b = r.buf ∧ ∃ idx, ND.Valid r.shape idx ∧ r.pos idx = p then f (m.data b p) else m.data b p, m.next⟩

open Classical in
/-- `r[mask] = v`: the elements whose index satisfies the condition are set to `v`. -/
noncomputable def writeWhere (m : Mem α) (r : Ref) (cond : List ℕ → Prop) (v : α) : Mem α :=
  ⟨fun b p => if b = r.buf ∧ ∃ idx, ND.Valid r.shape idx ∧ cond idx ∧ r.pos idx = p then v else m.data b p, m.next⟩

end Mem

/-- `r[i, :]`, a view: IndexError if there are fewer than two axes or `i` is too large. -/
def Ref.row (r : Ref) (i : ℕ) : Except Err Ref :=
  match r.shape with
  | n :: m :: s => if i < n then .ok ⟨r.buf, m :: s, fun idx => r.pos (i :: idx)⟩ else .error .indexError
  | _ => .error .indexError

/-- `np.swapaxes(r, i, j)`, a view -/
def Ref.swapaxes (r : Ref) (i j : ℤ) : Except Err Ref :=
  match ND.normAxis r.shape.length i with
  | .error e => .error e
  | .ok i' => match ND.normAxis r.shape.length j with
    | .error e => .error e
    | .ok j' => .ok ⟨r.buf, ND.swapList i' j' r.shape, fun idx => r.pos (ND.swapList i' j' idx)⟩

/-- `a[inds]` for an array of integers: a new array with the given rows. -/
def ND.takeRows {α : Type} (a : ND α) (inds : List ℕ) : ND α :=
  ⟨inds.length :: a.shape.tail, fun idx => a.get (inds.getD (idx.headD 0) 0 :: idx.tail)⟩

/-! ## Lemmas -/

/-- row `i` of `a[inds]` is row `inds[i]` of `a` -/
theorem ND.takeRows_get {α : Type} (a : ND α) (inds : List ℕ) (i : ℕ) (hi : i < inds.length) (idx : List ℕ) : (a.takeRows inds).get (i :: idx) = a.get (inds[i] :: idx) := by
  show a.get (inds.getD i 0 :: idx) = _
  rw [List.getD_eq_getElem?_getD, List.getElem?_eq_getElem hi]
  rfl
namespace Mem
variable {α : Type}

theorem read_alloc_old (m : Mem α) (a : ND α) {r : Ref} (h : r.buf < m.next) : (m.alloc a).1.read r = m.read r := by
  unfold read alloc
  simp only [if_neg (Nat.ne_of_lt h)]

theorem read_alloc_new (m : Mem α) (a : ND α) : (m.alloc a).1.read (m.alloc a).2 = a := by
  unfold read alloc
  simp

theorem read_write_other (m : Mem α) (r r' : Ref) (h : r'.buf ≠ r.buf) (idx : List ℕ) (v : α) : (m.write r idx v).read r' = m.read r' := by
  unfold read write
  split
  · simp [h]
  · rfl

theorem read_write_self (m : Mem α) (r : Ref) (idx : List ℕ) (v : α) (h : ND.Valid r.shape idx) : ((m.write r idx v).read r).get idx = v := by
  unfold read write
  simp [h]

theorem next_write (m : Mem α) (r : Ref) (idx : List ℕ) (v : α) : (m.write r idx v).next = m.next := by
  unfold write; split <;> rfl

theorem next_modify (m : Mem α) (r : Ref) (f : α → α) : (m.modify r f).next = m.next := rfl

theorem read_modify_other (m : Mem α) (r r' : Ref) (h : r'.buf ≠ r.buf) (f : α → α) : (m.modify r f).read r' = m.read r' := by
  unfold read modify
  simp [h]

theorem read_writeWhere_other (m : Mem α) (r r' : Ref) (h : r'.buf ≠ r.buf) (cond : List ℕ → Prop) (v : α) : (m.writeWhere r cond v).read r' = m.read r' := by
  unfold read writeWhere
  simp [h]

theorem next_writeWhere (m : Mem α) (r : Ref) (cond : List ℕ → Prop) (v : α) : (m.writeWhere r cond v).next = m.next := rfl

theorem read_modify_self (m : Mem α) (r : Ref) (f : α → α) (idx : List ℕ) (h : ND.Valid r.shape idx) :
    ((m.modify r f).read r).get idx = f ((m.read r).get idx) := by
  unfold read modify
  simp only []
  rw [if_pos ⟨rfl, idx, h, rfl⟩]

end Mem

theorem Ref.row_buf {r r' : Ref} {i : ℕ} (h : r.row i = .ok r') : r'.buf = r.buf := by
  unfold Ref.row at h
  split at h
  · split at h
    · cases h; rfl
    · cases h
  · cases h

theorem Ref.swapaxes_buf {r r' : Ref} {i j : ℤ} (h : r.swapaxes i j = .ok r') : r'.buf = r.buf := by
  unfold Ref.swapaxes at h
  split at h
  · cases h
  · split at h
    · cases h
    · cases h; rfl

theorem Ref.swapaxes_read {α : Type} (m : Mem α) {r r' : Ref} {i j : ℤ} (h : r.swapaxes i j = .ok r') : (m.read r).swapaxes i j = .ok (m.read r') := by
  unfold Ref.swapaxes at h
  unfold ND.swapaxes Mem.read
  simp only
  cases h1 : ND.normAxis r.shape.length i with
  | error e => rw [h1] at h; cases h
  | ok i' =>
    cases h2 : ND.normAxis r.shape.length j with
    | error e => rw [h1, h2] at h; cases h
    | ok j' =>
      rw [h1, h2] at h
      cases h
      rfl

theorem Ref.swapaxes_error {α : Type} (m : Mem α) {r : Ref} {i j : ℤ} {e : Err} (h : r.swapaxes i j = .error e) : (m.read r).swapaxes i j = .error e := by
  unfold Ref.swapaxes at h
  unfold ND.swapaxes Mem.read
  simp only
  cases h1 : ND.normAxis r.shape.length i with
  | error e => rw [h1] at h; simpa using h
  | ok i' =>
    cases h2 : ND.normAxis r.shape.length j with
    | error e => rw [h1, h2] at h; simpa using h
    | ok j' =>
      rw [h1, h2] at h
      cases h

theorem Ref.row_read {α : Type} (m : Mem α) {r r' : Ref} {i : ℕ} (h : r.row i = .ok r') : (m.read r).row i = .ok (m.read r') := by
  unfold Ref.row at h
  unfold ND.row Mem.read
  cases hs : r.shape with
  | nil => rw [hs] at h; cases h
  | cons n s =>
    cases s with
    | nil => rw [hs] at h; cases h
    | cons k s =>
      rw [hs] at h
      simp only at h ⊢
      split at h
      · rename_i hi
        rw [if_pos hi]
        cases h
        rfl
      · cases h

theorem Ref.row_error {α : Type} (m : Mem α) {r : Ref} {i : ℕ} {e : Err} (h : r.row i = .error e) : (m.read r).row i = .error e := by
  unfold Ref.row at h
  unfold ND.row Mem.read
  cases hs : r.shape with
  | nil => rw [hs] at h; simpa using h
  | cons n s =>
    cases s with
    | nil => rw [hs] at h; simpa using h
    | cons k s =>
      rw [hs] at h
      simp only at h ⊢
      split at h
      · cases h
      · rename_i hi
        rw [if_neg hi]
        simpa using h

end Pyirf.Np
