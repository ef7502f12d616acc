import Mathlib.Algebra.Order.Field.Basic
import Mathlib.Data.Fintype.Card
import Mathlib.Order.Fin.Basic
import Mathlib.Data.Fin.Tuple.Sort
import Mathlib.Order.Interval.Finset.Fin
import Mathlib.Tactic.Linarith
import Mathlib.Tactic.Ring
import Mathlib.Tactic.FieldSimp

/-!
# scipy contract: `interp1d(x, y, bounds_error=False, fill_value="extrapolate")`, linear

scipy/interpolate/_interpolate.py, `interp1d._call_linear`: the interval is found by `searchsorted(x, x_new)` clipped to
`[1, len(x) - 1]`, and the line through its end points is evaluated.  `interp1d` sorts the table by `x` first
(`np.argsort(x, kind="mergesort")`, a stable sort, `assume_sorted=False`).
-/
set_option linter.unusedSectionVars false

namespace Pyirf.Np
variable {K : Type*} [Field K] [LinearOrder K] [IsStrictOrderedRing K]

/-- `np.searchsorted(x, v)` (left): the number of entries of the sorted array below `v`. -/
def searchsortedLeft {n : ℕ} (x : Fin n → K) (v : K) : ℕ := (Finset.univ.filter (fun i => x i < v)).card

/-- index of the upper node used: `x_new_indices.clip(1, len(x) - 1)` -/
def hiIndex {n : ℕ} (x : Fin (n + 2) → K) (v : K) : ℕ := min (max (searchsortedLeft x v) 1) (n + 1)

/-- `interp1d(x, y, fill_value="extrapolate")(v)` for a table with at least two entries. -/
def interp1dLinear {n : ℕ} (x y : Fin (n + 2) → K) (v : K) : K :=
  let hi : Fin (n + 2) := ⟨hiIndex x v, by unfold hiIndex; omega⟩
  let lo : Fin (n + 2) := ⟨hiIndex x v - 1, by unfold hiIndex; omega⟩
  let slope := (y hi - y lo) / (x hi - x lo)
  slope * (v - x lo) + y lo

theorem searchsortedLeft_eq {n : ℕ} {x : Fin n → K} {v : K} {k : ℕ} (hk : k ≤ n)
    (h1 : ∀ i : Fin n, (i : ℕ) < k → x i < v) (h2 : ∀ i : Fin n, k ≤ (i : ℕ) → v ≤ x i) : searchsortedLeft x v = k := by
  unfold searchsortedLeft
  have : (Finset.univ.filter (fun i => x i < v)) = (Finset.univ.filter (fun i : Fin n => (i : ℕ) < k)) := by
    apply Finset.filter_congr
    intro i _
    constructor
    · intro h; by_contra hc; exact absurd h (not_lt.mpr (h2 i (not_lt.mp hc)))
    · exact h1 i
  rw [this]
  have e : (Finset.univ.filter (fun i : Fin n => (i : ℕ) < k)) = Finset.univ.map (Fin.castLEEmb hk) := by
    ext i
    simp only [Finset.mem_filter, Finset.mem_univ, true_and, Finset.mem_map]
    constructor
    · intro h; exact ⟨⟨i, h⟩, by ext; simp⟩
    · rintro ⟨j, rfl⟩; simp
  rw [e, Finset.card_map, Finset.card_univ, Fintype.card_fin]

/-- between (or at) two neighbouring nodes the line through them is evaluated -/
theorem interp1dLinear_between {n : ℕ} {x y : Fin (n + 2) → K} (hx : StrictMono x) {v : K} (k : Fin (n + 1))
    (h1 : x k.castSucc ≤ v) (h2 : v ≤ x k.succ) :
    interp1dLinear x y v = (y k.succ - y k.castSucc) / (x k.succ - x k.castSucc) * (v - x k.castSucc) + y k.castSucc := by
  rcases h1.lt_or_eq with h | h
  · have hs : searchsortedLeft x v = k + 1 := by
      apply searchsortedLeft_eq (by omega)
      · intro i hi; exact lt_of_le_of_lt (hx.monotone (show i ≤ k.castSucc by rw [Fin.le_def]; simp; omega)) h
      · intro i hi; exact h2.trans (hx.monotone (show k.succ ≤ i by rw [Fin.le_def]; simpa using hi))
    have hh : hiIndex x v = k + 1 := by unfold hiIndex; rw [hs]; omega
    unfold interp1dLinear
    simp only [hh]
    rfl
  · have hs : searchsortedLeft x v = k := by
      apply searchsortedLeft_eq (by omega)
      · intro i hi; rw [← h]; exact hx (show i < k.castSucc by rw [Fin.lt_def]; simpa using hi)
      · intro i hi; rw [← h]; exact hx.monotone (show k.castSucc ≤ i by rw [Fin.le_def]; simpa using hi)
    subst h
    by_cases hk : (k : ℕ) = 0
    · have hh : hiIndex x (x k.castSucc) = k + 1 := by unfold hiIndex; rw [hs]; omega
      unfold interp1dLinear
      simp only [hh]
      rfl
    · have hh : hiIndex x (x k.castSucc) = k := by unfold hiIndex; rw [hs]; omega
      unfold interp1dLinear
      simp only [hh]
      have hlt : x ⟨(k : ℕ) - 1, by omega⟩ < x k.castSucc := hx (by rw [Fin.lt_def]; show (k : ℕ) - 1 < (k : ℕ); omega)
      have e : (⟨(k : ℕ), by omega⟩ : Fin (n + 2)) = k.castSucc := rfl
      rw [e]
      have : x k.castSucc - x ⟨(k : ℕ) - 1, by omega⟩ ≠ 0 := (sub_pos.mpr hlt).ne'
      field_simp
      ring

/-- at every value the line through two neighbouring nodes is evaluated -/
theorem interp1dLinear_line {n : ℕ} (x y : Fin (n + 2) → K) (v : K) :
    ∃ k : Fin (n + 1), interp1dLinear x y v =
      (y k.succ - y k.castSucc) / (x k.succ - x k.castSucc) * (v - x k.castSucc) + y k.castSucc := by
  have h1 : 1 ≤ hiIndex x v := by unfold hiIndex; omega
  have h2 : hiIndex x v ≤ n + 1 := by unfold hiIndex; omega
  refine ⟨⟨hiIndex x v - 1, by omega⟩, ?_⟩
  unfold interp1dLinear
  have e : (⟨hiIndex x v, by omega⟩ : Fin (n + 2)) = Fin.succ ⟨hiIndex x v - 1, by omega⟩ := by ext; simp; omega
  simp only []
  rw [e]
  rfl

theorem interp1dLinear_node {n : ℕ} {x y : Fin (n + 2) → K} (hx : StrictMono x) (i : Fin (n + 2)) : interp1dLinear x y (x i) = y i := by
  rcases Fin.eq_castSucc_or_eq_last i with ⟨k, rfl⟩ | rfl
  · rw [interp1dLinear_between hx k le_rfl (hx (Fin.castSucc_lt_succ)).le]; ring
  · have : Fin.last (n + 1) = (Fin.last n).succ := rfl
    rw [this, interp1dLinear_between hx (Fin.last n) (hx (Fin.castSucc_lt_succ)).le le_rfl]
    have := hx (Fin.castSucc_lt_succ (i := Fin.last n))
    have : x (Fin.last n).succ - x (Fin.last n).castSucc ≠ 0 := (sub_pos.mpr this).ne'
    field_simp
    ring

/-- between neighbouring nodes the value is a convex combination -/
theorem interp1dLinear_mem {n : ℕ} {x y : Fin (n + 2) → K} (hx : StrictMono x) {v : K} (k : Fin (n + 1))
    (h1 : x k.castSucc ≤ v) (h2 : v ≤ x k.succ) :
    min (y k.castSucc) (y k.succ) ≤ interp1dLinear x y v ∧ interp1dLinear x y v ≤ max (y k.castSucc) (y k.succ) := by
  rw [interp1dLinear_between hx k h1 h2]
  have hlt := hx (Fin.castSucc_lt_succ (i := k))
  set a := x k.castSucc
  set b := x k.succ
  set c := y k.castSucc
  set d := y k.succ
  have hb : 0 < b - a := by linarith
  have ht0 : 0 ≤ (v - a) / (b - a) := div_nonneg (by linarith) hb.le
  have ht1 : (v - a) / (b - a) ≤ 1 := by rw [div_le_one hb]; linarith
  have e : (d - c) / (b - a) * (v - a) + c = c + (v - a) / (b - a) * (d - c) := by ring
  rw [e]
  set t := (v - a) / (b - a)
  rcases le_total c d with h | h
  · rw [min_eq_left h, max_eq_right h]; constructor <;> nlinarith
  · rw [min_eq_right h, max_eq_left h]; constructor <;> nlinarith

/-- `interp1d(x, y, bounds_error=False, fill_value="extrapolate")(v)` for a table in any order: sorted by `x` (equal `x` in table order) first. -/
def interp1d {n : ℕ} (x y : Fin (n + 2) → K) (v : K) : K :=
  let ind := Tuple.sort x
  interp1dLinear (fun i => x (ind i)) (fun i => y (ind i)) v

theorem sort_strictMono {n : ℕ} {x : Fin n → K} (hx : Function.Injective x) : StrictMono (fun i => x (Tuple.sort x i)) :=
  (Tuple.monotone_sort x).strictMono_of_injective (hx.comp (Tuple.sort x).injective)

/-- for a sorted table nothing is moved -/
theorem interp1d_sorted {n : ℕ} {x : Fin (n + 2) → K} (hx : StrictMono x) (y : Fin (n + 2) → K) (v : K) : interp1d x y v = interp1dLinear x y v := by
  have : Tuple.sort x = Equiv.refl _ := Tuple.sort_eq_refl_iff_monotone.mpr hx.monotone
  unfold interp1d
  simp only [this]
  rfl

/-- the order of the table does not matter -/
theorem interp1d_perm {n : ℕ} {x : Fin (n + 2) → K} (hx : Function.Injective x) (y : Fin (n + 2) → K) (p : Equiv.Perm (Fin (n + 2))) (v : K) :
    interp1d (fun i => x (p i)) (fun i => y (p i)) v = interp1d x y v := by
  have h : ∀ i, p (Tuple.sort (fun i => x (p i)) i) = Tuple.sort x i := by
    intro i
    apply hx
    exact congrFun (Tuple.comp_perm_comp_sort_eq_comp_sort (f := x) (σ := p)) i
  unfold interp1d
  simp only [h]

theorem interp1d_node {n : ℕ} {x y : Fin (n + 2) → K} (hx : Function.Injective x) (i : Fin (n + 2)) : interp1d x y (x i) = y i := by
  have := interp1dLinear_node (y := fun i => y (Tuple.sort x i)) (sort_strictMono hx) ((Tuple.sort x).symm i)
  simpa [interp1d] using this

/-- the value is on the line through two entries of the table -/
theorem interp1d_line {n : ℕ} {x : Fin (n + 2) → K} (hx : Function.Injective x) (y : Fin (n + 2) → K) (v : K) :
    ∃ i j, x i < x j ∧ interp1d x y v = (y j - y i) / (x j - x i) * (v - x i) + y i := by
  obtain ⟨k, hk⟩ := interp1dLinear_line (fun i => x (Tuple.sort x i)) (fun i => y (Tuple.sort x i)) v
  exact ⟨_, _, sort_strictMono hx (Fin.castSucc_lt_succ (i := k)), hk⟩

/-- two entries without a third between them are neighbours after sorting -/
theorem sort_neighbours {n : ℕ} {x : Fin (n + 2) → K} (hx : Function.Injective x) {i j : Fin (n + 2)} (hij : x i < x j)
    (hn : ∀ k, x k ≤ x i ∨ x j ≤ x k) : ∃ k : Fin (n + 1), Tuple.sort x k.castSucc = i ∧ Tuple.sort x k.succ = j := by
  have hm := sort_strictMono hx
  obtain ⟨a, rfl⟩ := (Tuple.sort x).surjective i
  obtain ⟨b, rfl⟩ := (Tuple.sort x).surjective j
  have hab : a < b := hm.lt_iff_lt.mp hij
  have hlt : (a : ℕ) < b := hab
  have hb := b.isLt
  refine ⟨⟨a, by omega⟩, rfl, ?_⟩
  congr 1
  rcases hn (Tuple.sort x (Fin.succ ⟨a, by omega⟩)) with h | h
  · have := hm.le_iff_le.mp h
    rw [Fin.le_def] at this
    simp at this
  · have := hm.le_iff_le.mp h
    rw [Fin.le_def] at this
    rw [Fin.ext_iff]
    simp at this ⊢
    omega

theorem interp1d_mem {n : ℕ} {x y : Fin (n + 2) → K} (hx : Function.Injective x) {v : K} {i j : Fin (n + 2)} (hij : x i < x j)
    (hn : ∀ k, x k ≤ x i ∨ x j ≤ x k) (h1 : x i ≤ v) (h2 : v ≤ x j) :
    min (y i) (y j) ≤ interp1d x y v ∧ interp1d x y v ≤ max (y i) (y j) := by
  obtain ⟨k, rfl, rfl⟩ := sort_neighbours hx hij hn
  exact interp1dLinear_mem (y := fun i => y (Tuple.sort x i)) (sort_strictMono hx) k h1 h2

theorem lt_searchsortedLeft {n : ℕ} {x : Fin n → K} (hx : StrictMono x) (v : K) (i : Fin n) :
    (i : ℕ) < searchsortedLeft x v ↔ x i < v := by
  unfold searchsortedLeft
  constructor
  · intro h
    by_contra hc
    have hs : (Finset.univ.filter (fun i => x i < v)) ⊆ Finset.Iio i := by
      intro j hj
      simp only [Finset.mem_filter, Finset.mem_univ, true_and] at hj
      rw [Finset.mem_Iio]
      by_contra hji
      exact hc (lt_of_le_of_lt (hx.monotone (not_lt.mp hji)) hj)
    have := Finset.card_le_card hs
    rw [Fin.card_Iio] at this
    omega
  · intro h
    have hs : Finset.Iic i ⊆ (Finset.univ.filter (fun i => x i < v)) := by
      intro j hj
      simp only [Finset.mem_filter, Finset.mem_univ, true_and]
      exact lt_of_le_of_lt (hx.monotone (Finset.mem_Iic.mp hj)) h
    have := Finset.card_le_card hs
    rw [Fin.card_Iic] at this
    omega

/-- at every value the line through the neighbouring nodes is evaluated, the first or last line outside -/
theorem interp1dLinear_segment {n : ℕ} {x : Fin (n + 2) → K} (hx : StrictMono x) (y : Fin (n + 2) → K) (v : K) :
    ∃ k : Fin (n + 1), interp1dLinear x y v =
        (y k.succ - y k.castSucc) / (x k.succ - x k.castSucc) * (v - x k.castSucc) + y k.castSucc ∧
      ((k : ℕ) ≠ 0 → x k.castSucc < v) ∧ ((k : ℕ) ≠ n → v ≤ x k.succ) := by
  have h1 : 1 ≤ hiIndex x v := by unfold hiIndex; omega
  have h2 : hiIndex x v ≤ n + 1 := by unfold hiIndex; omega
  refine ⟨⟨hiIndex x v - 1, by omega⟩, ?_, ?_, ?_⟩
  · unfold interp1dLinear
    have e : (⟨hiIndex x v, by omega⟩ : Fin (n + 2)) = Fin.succ ⟨hiIndex x v - 1, by omega⟩ := by ext; simp; omega
    simp only []
    rw [e]
    rfl
  · intro hk
    rw [← lt_searchsortedLeft hx]
    show hiIndex x v - 1 < _
    unfold hiIndex at hk ⊢
    simp only at hk
    omega
  · intro hk
    rw [← not_lt, ← lt_searchsortedLeft hx]
    show ¬ (hiIndex x v - 1 + 1 < _)
    unfold hiIndex at hk ⊢
    simp only at hk
    omega

/-- a strictly decreasing table gives a strictly decreasing function, also outside the table -/
theorem interp1dLinear_strictAnti {n : ℕ} {x y : Fin (n + 2) → K} (hx : StrictMono x) (hy : StrictAnti y) :
    StrictAnti (interp1dLinear x y) := by
  intro u v huv
  obtain ⟨k, hk, hk0, hk1⟩ := interp1dLinear_segment hx y u
  obtain ⟨l, hl, hl0, hl1⟩ := interp1dLinear_segment hx y v
  have slope : ∀ k : Fin (n + 1), (y k.succ - y k.castSucc) / (x k.succ - x k.castSucc) < 0 := fun k =>
    div_neg_of_neg_of_pos (sub_neg.mpr (hy Fin.castSucc_lt_succ)) (sub_pos.mpr (hx Fin.castSucc_lt_succ))
  rcases lt_trichotomy (k : ℕ) (l : ℕ) with h | h | h
  · have hu : u ≤ x k.succ := hk1 (by have := l.isLt; omega)
    have hv : x l.castSucc < v := hl0 (by omega)
    have e1 : y k.succ ≤ interp1dLinear x y u := by
      rw [hk]
      have h3 : x k.succ - x k.castSucc ≠ 0 := (sub_pos.mpr (hx Fin.castSucc_lt_succ)).ne'
      have e : y k.succ = (y k.succ - y k.castSucc) / (x k.succ - x k.castSucc) * (x k.succ - x k.castSucc) + y k.castSucc := by
        rw [div_mul_cancel₀ _ h3]; ring
      have := mul_le_mul_of_nonpos_left (sub_le_sub_right hu (x k.castSucc)) (slope k).le
      linarith
    have e2 : interp1dLinear x y v < y l.castSucc := by
      rw [hl]
      have := mul_neg_of_neg_of_pos (slope l) (sub_pos.mpr hv)
      linarith
    have e3 : y l.castSucc ≤ y k.succ := hy.antitone (by rw [Fin.le_def]; simp; omega)
    exact lt_of_lt_of_le e2 (e3.trans e1)
  · have e : k = l := Fin.ext h
    subst e
    rw [hk, hl]
    have := mul_lt_mul_of_neg_left (sub_lt_sub_right huv (x k.castSucc)) (slope k)
    linarith
  · exfalso
    have hv : v ≤ x l.succ := hl1 (by have := k.isLt; omega)
    have hu : x k.castSucc < u := hk0 (by omega)
    have : x l.succ ≤ x k.castSucc := hx.monotone (by rw [Fin.le_def]; simp; omega)
    exact absurd (lt_of_le_of_lt (hv.trans this) hu) (not_lt.mpr huv.le)

end Pyirf.Np
