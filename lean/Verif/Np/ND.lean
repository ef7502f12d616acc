import Verif.Np.FV
import Mathlib.Data.List.Forall2

/-!
# numpy contract: arrays with any number of axes

An array is its shape and its entries, addressed by index lists.
-/
set_option linter.unusedSectionVars false

namespace Pyirf.Np

/-- A numpy array. Only the entries at valid indices count. -/
structure ND (α : Type*) where
  /-- `a.shape` -/
  shape : List ℕ
  /-- `a[idx]` -/
  get : List ℕ → α

namespace ND
variable {α : Type*}

/-- An index of an array of this shape: one nonnegative number below the length per axis. -/
def Valid (shape idx : List ℕ) : Prop := List.Forall₂ (· < ·) idx shape

/-- `a[i, :]` for `i >= 0`: IndexError if there are fewer than two axes or `i` is too large. -/
def row (a : ND α) (i : ℕ) : Except Err (ND α) :=
  match a.shape with
  | n :: m :: s => if i < n then .ok ⟨m :: s, fun idx => a.get (i :: idx)⟩ else .error .indexError
  | _ => .error .indexError

/-- `a[np.newaxis, :]`: IndexError for an array without axes. -/
def newaxis (a : ND α) : Except Err (ND α) :=
  match a.shape with
  | [] => .error .indexError
  | s => .ok ⟨1 :: s, fun idx => a.get idx.tail⟩

/-- the index of the original array for an index of the squeezed array -/
def unsqueeze : List ℕ → List ℕ → List ℕ
  | [], _ => []
  | n :: s, idx => if n = 1 then 0 :: unsqueeze s idx else idx.headD 0 :: unsqueeze s idx.tail

/-- `a.squeeze()` -/
def squeeze (a : ND α) : ND α := ⟨a.shape.filter (· ≠ 1), fun idx => a.get (unsqueeze a.shape idx)⟩

/-- Normalization of an axis number; numpy's AxisError is a ValueError. -/
def normAxis (n : ℕ) (axis : ℤ) : Except Err ℕ :=
  if -(n : ℤ) ≤ axis ∧ axis < n then .ok (if axis < 0 then (axis + n).toNat else axis.toNat) else .error .valueError

/-- exchange of two entries of a list -/
def swapList (i j : ℕ) (l : List ℕ) : List ℕ := (l.set i (l.getD j 0)).set j (l.getD i 0)

/-- `np.swapaxes(a, i, j)` -/
def swapaxes (a : ND α) (i j : ℤ) : Except Err (ND α) :=
  match normAxis a.shape.length i with
  | .error e => .error e
  | .ok i' => match normAxis a.shape.length j with
    | .error e => .error e
    | .ok j' => .ok ⟨swapList i' j' a.shape, fun idx => a.get (swapList i' j' idx)⟩

/-- broadcasting of two shapes, given in reversed order -/
def broadcastRev : List ℕ → List ℕ → Option (List ℕ)
  | [], t => some t
  | s, [] => some s
  | a :: s, b :: t =>
    match broadcastRev s t with
    | none => none
    | some r => if a = b ∨ b = 1 then some (a :: r) else if a = 1 then some (b :: r) else none

/-- the index into an array of shape `s` for an index of the broadcast array -/
def broadcastIdx (s idx : List ℕ) : List ℕ :=
  List.zipWith (fun n i => if n = 1 then 0 else i) s (idx.drop (idx.length - s.length))

/-- `a * b` with numpy broadcasting -/
def mul [Mul α] (a b : ND α) : Except Err (ND α) :=
  match broadcastRev a.shape.reverse b.shape.reverse with
  | none => .error .valueError
  | some r => .ok ⟨r.reverse, fun idx => a.get (broadcastIdx a.shape idx) * b.get (broadcastIdx b.shape idx)⟩

/-- `np.array([...])` of arrays of the same shape (the shape of the first one) -/
def stack (s : List ℕ) (l : List (ND α)) (default : α) : ND α :=
  ⟨l.length :: s, fun idx => match l[idx.headD 0]? with | some a => a.get idx.tail | none => default⟩

/-- `np.sum(a, axis=0)` for an array with at least one axis -/
def sum0 [Add α] [Zero α] (a : ND α) : ND α :=
  ⟨a.shape.tail, fun idx => ((List.range (a.shape.headD 0)).map fun i => a.get (i :: idx)).foldr (· + ·) 0⟩

end ND

/-! ## Lemmas -/
namespace ND

theorem valid_length {shape idx : List ℕ} (h : Valid shape idx) : idx.length = shape.length := h.length_eq

theorem length_swapList (i j : ℕ) (l : List ℕ) : (swapList i j l).length = l.length := by simp [swapList]

theorem getElem_swapList {i j : ℕ} {l : List ℕ} (hi : i < l.length) (hj : j < l.length) (k : ℕ) (hk : k < l.length) :
    (swapList i j l)[k]'(by rw [length_swapList]; exact hk) = if k = j then l[i] else if k = i then l[j] else l[k] := by
  unfold swapList
  rw [List.getElem_set, List.getElem_set]
  simp only [List.getD_eq_getElem?_getD, List.getElem?_eq_getElem hi, List.getElem?_eq_getElem hj, Option.getD_some]
  by_cases h1 : k = j
  · subst h1; simp
  · by_cases h2 : k = i
    · subst h2; simp [h1, Ne.symm h1]
    · simp [h1, h2, Ne.symm h1, Ne.symm h2]

theorem swapList_swapList {i j : ℕ} {l : List ℕ} (hi : i < l.length) (hj : j < l.length) : swapList i j (swapList i j l) = l := by
  apply List.ext_getElem
  · simp [length_swapList]
  · intro k h1 h2
    rw [getElem_swapList (by rw [length_swapList]; exact hi) (by rw [length_swapList]; exact hj) k (by rw [length_swapList]; exact h2)]
    rw [getElem_swapList hi hj i hi, getElem_swapList hi hj j hj, getElem_swapList hi hj k h2]
    by_cases a : k = j
    · subst a; simp; intro h; subst h; rfl
    · by_cases b : k = i
      · subst b; simp [a]
      · simp [a, b]

theorem swapList_comm {i j : ℕ} {l : List ℕ} (hi : i < l.length) (hj : j < l.length) : swapList i j l = swapList j i l := by
  apply List.ext_getElem
  · simp [length_swapList]
  · intro k h1 h2
    have hk : k < l.length := by simpa [length_swapList] using h1
    rw [getElem_swapList hi hj k hk, getElem_swapList hj hi k hk]
    by_cases a : k = j
    · subst a; by_cases b : k = i
      · subst b; simp
      · simp [b]
    · simp [a]

theorem normAxis_neg_one {n : ℕ} (h : 0 < n) : normAxis n (-1) = .ok (n - 1) := by
  unfold normAxis
  rw [if_pos (by omega), if_pos (by omega)]
  congr 1
  omega

theorem normAxis_lt {n : ℕ} {axis : ℤ} {k : ℕ} (h : normAxis n axis = .ok k) : k < n := by
  unfold normAxis at h
  split at h
  · next hc =>
    have := Except.ok.inj h
    split at this <;> omega
  · cases h

end ND
end Pyirf.Np
