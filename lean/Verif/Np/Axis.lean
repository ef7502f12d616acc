import Verif.Np.ND
import Mathlib.Algebra.BigOperators.Fin
import Mathlib.Algebra.BigOperators.Ring.Finset

/-!
# numpy contract: operations along one axis of an array
-/
set_option linter.unusedSectionVars false

namespace Pyirf.Np.ND

/-- `a.cumsum(axis=k)` -/
def cumsum {α : Type*} [AddCommMonoid α] (a : ND α) (k : ℕ) : ND α :=
  ⟨a.shape, fun idx => ∑ j ∈ Finset.range (idx.getD k 0 + 1), a.get (idx.set k j)⟩

/-- `np.insert(a, 0, 0, axis=k)` -/
def insertZero {α : Type*} [Zero α] (a : ND α) (k : ℕ) : ND α :=
  ⟨a.shape.set k (a.shape.getD k 0 + 1), fun idx => if idx.getD k 0 = 0 then 0 else a.get (idx.set k (idx.getD k 0 - 1))⟩

/-- `a.sum(axis=k, keepdims=True)` -/
def sumKeep {α : Type*} [AddCommMonoid α] (a : ND α) (k : ℕ) : ND α :=
  ⟨a.shape.set k 1, fun idx => ∑ j ∈ Finset.range (a.shape.getD k 0), a.get (idx.set k j)⟩

/-- an operation of two arrays with numpy broadcasting: ValueError if the shapes do not fit -/
def zip {α : Type*} (f : α → α → α) (a b : ND α) : Except Err (ND α) :=
  match broadcastRev a.shape.reverse b.shape.reverse with
  | none => .error .valueError
  | some r => .ok ⟨r.reverse, fun idx => f (a.get (broadcastIdx a.shape idx)) (b.get (broadcastIdx b.shape idx))⟩

/-- `np.diff(a, axis=k)` -/
def diff {α : Type*} [Sub α] (a : ND α) (k : ℕ) : ND α :=
  ⟨a.shape.set k (a.shape.getD k 0 - 1), fun idx => a.get (idx.set k (idx.getD k 0 + 1)) - a.get (idx.set k (idx.getD k 0))⟩

/-! ## Lemmas -/

theorem broadcastRev_set : ∀ (s : List ℕ) (k : ℕ), broadcastRev s (s.set k 1) = some s := by
  intro s
  induction s with
  | nil => intro k; rfl
  | cons a s ih =>
    intro k
    cases k with
    | zero =>
      have h : broadcastRev s s = some s := by
        have := ih s.length
        rwa [List.set_eq_of_length_le (le_refl _)] at this
      simp [List.set_cons_zero, broadcastRev, h]
    | succ k => simp [List.set_cons_succ, broadcastRev, ih k]

theorem reverse_set {s : List ℕ} {k : ℕ} (hk : k < s.length) (v : ℕ) : (s.set k v).reverse = s.reverse.set (s.length - 1 - k) v := by
  apply List.ext_getElem
  · simp
  · intro i h1 h2
    simp only [List.length_reverse, List.length_set] at h1 h2
    simp only [List.getElem_reverse, List.getElem_set, List.length_set]
    by_cases h : s.length - 1 - k = i
    · rw [if_pos h, if_pos (by omega)]
    · rw [if_neg h, if_neg (by omega)]

theorem broadcastIdx_valid {s idx : List ℕ} (h : Valid s idx) : broadcastIdx s idx = idx := by
  have hl : idx.length - s.length = 0 := by rw [valid_length h]; omega
  unfold broadcastIdx
  rw [hl, List.drop_zero]
  clear hl
  induction h with
  | nil => rfl
  | @cons i n is ns h1 _ ih =>
    rw [List.zipWith_cons_cons, ih]
    by_cases h : n = 1
    · subst h; rw [if_pos rfl]; congr 1; omega
    · rw [if_neg h]

theorem zipWith_set : ∀ (s idx : List ℕ) (k : ℕ), Valid s idx →
    List.zipWith (fun n i => if n = 1 then 0 else i) (s.set k 1) idx = idx.set k 0 := by
  intro s idx k h
  induction h generalizing k with
  | nil => rfl
  | @cons i n is ns h1 h2 ih =>
    cases k with
    | zero =>
      have := broadcastIdx_valid h2
      have hl : is.length - ns.length = 0 := by rw [valid_length h2]; omega
      unfold broadcastIdx at this
      rw [hl, List.drop_zero] at this
      simp [List.set_cons_zero, this]
    | succ k =>
      rw [List.set_cons_succ, List.set_cons_succ, List.zipWith_cons_cons, ih]
      by_cases h : n = 1
      · subst h; rw [if_pos rfl]; congr 1; omega
      · rw [if_neg h]

theorem broadcastIdx_set {s idx : List ℕ} (k : ℕ) (h : Valid s idx) : broadcastIdx (s.set k 1) idx = idx.set k 0 := by
  have hl : idx.length - (s.set k 1).length = 0 := by rw [valid_length h, List.length_set]; omega
  unfold broadcastIdx
  rw [hl, List.drop_zero]
  exact zipWith_set s idx k h

/-- An operation with an array of length 1 along one axis. -/
theorem zip_keep {α : Type*} (f : α → α → α) (a b : ND α) {k : ℕ} (hk : k < a.shape.length) (hb : b.shape = a.shape.set k 1) :
    ∃ r, zip f a b = .ok r ∧ r.shape = a.shape ∧ ∀ idx, Valid a.shape idx → r.get idx = f (a.get idx) (b.get (idx.set k 0)) := by
  have e : broadcastRev a.shape.reverse b.shape.reverse = some a.shape.reverse := by
    rw [hb, reverse_set hk]; exact broadcastRev_set _ _
  refine ⟨⟨a.shape, fun idx => f (a.get (broadcastIdx a.shape idx)) (b.get (broadcastIdx b.shape idx))⟩, ?_, rfl, ?_⟩
  · unfold zip; rw [e]; simp only [List.reverse_reverse]
  · intro idx h
    show f (a.get (broadcastIdx a.shape idx)) (b.get (broadcastIdx b.shape idx)) = _
    rw [broadcastIdx_valid h, hb, broadcastIdx_set k h]

theorem valid_iff {s idx : List ℕ} : Valid s idx ↔ idx.length = s.length ∧ ∀ i (h : i < idx.length) (h' : i < s.length), idx[i] < s[i] :=
  List.forall₂_iff_get

theorem valid_set {s idx : List ℕ} {k n i : ℕ} (h : Valid s idx) (hi : i < n) : Valid (s.set k n) (idx.set k i) := by
  induction h generalizing k with
  | nil => exact List.Forall₂.nil
  | @cons a b as bs h1 h2 ih =>
    cases k with
    | zero => exact List.Forall₂.cons hi h2
    | succ k => exact List.Forall₂.cons h1 ih

theorem valid_getD {s idx : List ℕ} {k : ℕ} (h : Valid s idx) (hk : k < s.length) : idx.getD k 0 < s.getD k 0 := by
  have hl := valid_length h
  obtain ⟨-, h2⟩ := valid_iff.1 h
  rw [List.getD_eq_getElem?_getD, List.getD_eq_getElem?_getD, List.getElem?_eq_getElem hk, List.getElem?_eq_getElem (by omega)]
  exact h2 k (by omega) hk

end Pyirf.Np.ND
