import Verif.Interpolation.EstimatorModel
import Verif.Interpolation.NearestModel
import Mathlib.Tactic.FinCases

/-!
# C65, C66, C103, C104: axes and keyword arguments of the table estimators
-/
set_option linter.unusedSectionVars false
set_option linter.unusedSimpArgs false

namespace Pyirf.Interpolation
open Pyirf Pyirf.Np Pyirf.Np.ND

/-! ## C65: the axis argument -/

/-- An estimator of PDFs along the last axis: the first axis gets the length 1, and every PDF of the result is a function `F` (of the lengths of first and last axis
and) of the PDFs of the input in the same cell. -/
def Cellwise {α : Type*} (est : ND α → Except Err (ND α)) (F : ℕ → ℕ → (ℕ → ℕ → α) → ℕ → α) : Prop :=
  ∀ x : ND α, 2 ≤ x.shape.length → ∃ y, est x = .ok y ∧ y.shape = x.shape.set 0 1 ∧ ∀ idx, Valid y.shape idx →
    y.get idx = F (x.shape.getD 0 0) (x.shape.getD (x.shape.length - 1) 0) (fun k b => x.get ((idx.set 0 k).set (x.shape.length - 1) b)) (idx.getD (x.shape.length - 1) 0)

theorem getD_swapList {i j : ℕ} {l : List ℕ} (hi : i < l.length) (hj : j < l.length) (k : ℕ) :
    (swapList i j l).getD k 0 = if k = j then l.getD i 0 else if k = i then l.getD j 0 else l.getD k 0 := by
  by_cases hk : k < l.length
  · have h := getElem_swapList hi hj k hk
    have e : ∀ (m : List ℕ) (n : ℕ) (h : n < m.length), m.getD n 0 = m[n] := fun m n h => by rw [List.getD_eq_getElem?_getD, List.getElem?_eq_getElem h]; rfl
    rw [e _ _ (by rw [length_swapList]; exact hk), h, e _ _ hi, e _ _ hj, e _ _ hk]
  · have h1 : (swapList i j l).getD k 0 = 0 := by
      rw [List.getD_eq_getElem?_getD, List.getElem?_eq_none (by rw [length_swapList]; omega)]; rfl
    have h2 : l.getD k 0 = 0 := by rw [List.getD_eq_getElem?_getD, List.getElem?_eq_none (by omega)]; rfl
    rw [h1, if_neg (by omega), if_neg (by omega), h2]

theorem getD_set (l : List ℕ) (i k b : ℕ) : (l.set i b).getD k 0 = if k = i ∧ i < l.length then b else l.getD k 0 := by
  rw [List.getD_eq_getElem?_getD, List.getD_eq_getElem?_getD, List.getElem?_set]
  by_cases h : i = k
  · subst h
    by_cases hk : i < l.length
    · simp [hk]
    · simp [hk]
  · simp [h, Ne.symm h]

theorem ext_getD {l m : List ℕ} (hl : l.length = m.length) (h : ∀ k < l.length, l.getD k 0 = m.getD k 0) : l = m := by
  apply List.ext_getElem hl
  intro k h1 h2
  have := h k h1
  rwa [List.getD_eq_getElem?_getD, List.getD_eq_getElem?_getD, List.getElem?_eq_getElem h1, List.getElem?_eq_getElem h2] at this

theorem valid_iff {shape idx : List ℕ} : Valid shape idx ↔ idx.length = shape.length ∧ ∀ k < shape.length, idx.getD k 0 < shape.getD k 0 := by
  unfold Valid
  rw [List.forall₂_iff_get]
  refine and_congr_right fun hl => ?_
  constructor
  · intro h k hk
    have := h k (by omega) hk
    simpa [List.getD_eq_getElem?_getD, List.getElem?_eq_getElem hk, List.getElem?_eq_getElem (show k < idx.length by omega)] using this
  · intro h k h1 h2
    have := h k h2
    simpa [List.getD_eq_getElem?_getD, List.getElem?_eq_getElem h2, List.getElem?_eq_getElem h1] using this

/-- **C65** For every valid axis (other than that of the grid points): the table of the estimate has the shape of one template with a leading axis of length one, and
along the axis every PDF is what the estimator computes from the PDFs of the input in the same cell along the same axis. -/
theorem C65_axis {α : Type*} (est : ND α → Except Err (ND α)) (F : ℕ → ℕ → (ℕ → ℕ → α) → ℕ → α) (hest : Cellwise est F) (table : ND α) (axis : ℤ) (ax : ℕ)
    (hax : normAxis table.shape.length axis = .ok ax) (h0 : ax ≠ 0) :
    ∃ out, estimateAlong est table axis = .ok out ∧ out.shape = table.shape.set 0 1 ∧ ∀ idx, Valid out.shape idx →
      out.get idx = F (table.shape.getD 0 0) (table.shape.getD ax 0) (fun k b => table.get ((idx.set 0 k).set ax b)) (idx.getD ax 0) := by
  have haxl := normAxis_lt hax
  set n := table.shape.length with hn
  have hlast : n - 1 < table.shape.length := by omega
  have hswap : table.swapaxes axis (-1) = .ok ⟨swapList ax (n - 1) table.shape, fun idx => table.get (swapList ax (n - 1) idx)⟩ := by
    unfold swapaxes
    rw [← hn, hax, normAxis_neg_one (by omega)]
  obtain ⟨y, hy, hys, hyg⟩ := hest ⟨swapList ax (n - 1) table.shape, fun idx => table.get (swapList ax (n - 1) idx)⟩ (by simp only [length_swapList]; omega)
  simp only [length_swapList, ← hn] at hyg hys
  have hylen : y.shape.length = n := by rw [hys]; simp [length_swapList, ← hn]
  have hswap2 : y.swapaxes (-1) axis = .ok ⟨swapList (n - 1) ax y.shape, fun idx => y.get (swapList (n - 1) ax idx)⟩ := by
    unfold swapaxes
    rw [hylen, normAxis_neg_one (by omega), hax]
  have hshape : swapList (n - 1) ax y.shape = table.shape.set 0 1 := by
    refine ext_getD (by simp [length_swapList, hylen, ← hn]) fun k hk => ?_
    rw [length_swapList, hylen] at hk
    rw [getD_swapList (by omega) (by omega), hys]
    simp only [getD_set, getD_swapList (show ax < table.shape.length by omega) hlast, length_swapList, ← hn]
    by_cases hk0 : k = 0
    · subst hk0
      simp [Ne.symm h0, show (0 : ℕ) ≠ n - 1 by omega, show 0 < n by omega]
    · by_cases e1 : k = ax
      · subst e1
        simp only [if_true, show ¬ (n - 1 = 0 ∧ 0 < n) by omega, if_false, show ¬ (k = 0 ∧ 0 < n) by omega]
      · by_cases e2 : k = n - 1
        · subst e2
          simp [e1, h0, show ¬ (n - 1 = 0 ∧ 0 < n) by omega]
          intro h; exact absurd h.symm e1
        · simp [e1, e2, hk0]
  refine ⟨⟨swapList (n - 1) ax y.shape, fun idx => y.get (swapList (n - 1) ax idx)⟩, ?_, hshape, fun idx hidx => ?_⟩
  · unfold estimateAlong
    rw [hswap]
    simp only [hy]
    exact hswap2
  · have hv := valid_iff.mp hidx
    have hil : idx.length = n := by rw [hv.1]; simp [length_swapList, hylen]
    have hvalid : Valid y.shape (swapList (n - 1) ax idx) := by
      rw [valid_iff]
      refine ⟨by rw [length_swapList, hil, hylen], fun k hk => ?_⟩
      rw [hylen] at hk
      rw [getD_swapList (by omega) (by omega)]
      have hvk : ∀ j < n, idx.getD j 0 < (swapList (n - 1) ax y.shape).getD j 0 := fun j hj => hv.2 j (by rw [length_swapList, hylen]; exact hj)
      simp only [getD_swapList (show n - 1 < y.shape.length by omega) (show ax < y.shape.length by omega)] at hvk
      by_cases e1 : k = ax
      · subst e1
        rw [if_pos rfl]
        have := hvk (n - 1) (by omega)
        by_cases e3 : n - 1 = k
        · rw [if_pos e3] at this; rw [← e3]; exact this
        · rw [if_neg e3, if_pos rfl] at this; exact this
      · rw [if_neg e1]
        by_cases e2 : k = n - 1
        · rw [if_pos e2, e2]
          have := hvk ax (by omega)
          rw [if_pos rfl] at this; exact this
        · rw [if_neg e2]
          have := hvk k hk
          rw [if_neg e1, if_neg e2] at this; exact this
    show y.get (swapList (n - 1) ax idx) = _
    rw [hyg _ hvalid]
    have f1 : (swapList ax (n - 1) table.shape).getD 0 0 = table.shape.getD 0 0 := by
      rw [getD_swapList (by omega) hlast, if_neg (by omega), if_neg (Ne.symm h0)]
    have f2 : (swapList ax (n - 1) table.shape).getD (n - 1) 0 = table.shape.getD ax 0 := by
      rw [getD_swapList (by omega) hlast, if_pos rfl]
    have f3 : (swapList (n - 1) ax idx).getD (n - 1) 0 = idx.getD ax 0 := by
      rw [getD_swapList (by omega) (by omega)]
      by_cases e : n - 1 = ax
      · rw [if_pos e, e]
      · rw [if_neg e, if_pos rfl]
    rw [f1, f2, f3]
    congr 1
    funext k b
    congr 1
    refine ext_getD (by simp [length_swapList]) fun j hj => ?_
    simp only [length_swapList, List.length_set, hil] at hj
    rw [getD_swapList (by simp [length_swapList]; omega) (by simp [length_swapList]; omega)]
    simp only [getD_set, length_swapList, List.length_set, hil, getD_swapList (show n - 1 < idx.length by omega) (show ax < idx.length by omega)]
    by_cases e0 : j = 0
    · subst e0
      simp [Ne.symm h0, show (0 : ℕ) ≠ n - 1 by omega, show 0 < n by omega]
    · by_cases e1 : j = ax
      · subst e1
        by_cases e2 : j = n - 1
        · simp [e2, show n - 1 < n by omega]
        · simp [e2, show n - 1 < n by omega, hj]
      · by_cases e2 : j = n - 1
        · subst e2
          simp [e1, Ne.symm e1, h0, haxl, hj, show ax ≠ n - 1 by omega, e0]
        · simp [e0, e1, e2]

/-- **C65** An axis number out of range raises (numpy's AxisError is a ValueError). -/
theorem C65_bad_axis {α : Type*} (est : ND α → Except Err (ND α)) (table : ND α) (axis : ℤ) (h : ¬ (-(table.shape.length : ℤ) ≤ axis ∧ axis < table.shape.length)) :
    estimateAlong est table axis = .error .valueError := by
  have : normAxis table.shape.length axis = .error .valueError := by unfold normAxis; rw [if_neg h]
  unfold estimateAlong swapaxes
  rw [this]

/-- **C65** Exceptions of the estimator are passed on. -/
theorem C65_errors {α : Type*} (est : ND α → Except Err (ND α)) (table : ND α) (axis : ℤ) (x : ND α) (hx : table.swapaxes axis (-1) = .ok x) (e : Err) (he : est x = .error e) :
    estimateAlong est table axis = .error e := by
  unfold estimateAlong
  rw [hx]
  simp only [he]

/-! ## C103: nearest neighbors -/

/-- **C103** (deviation) The nearest neighbor searcher returns its template without leading axis (see C91), so a non-negative axis number means another axis when the
axes are swapped back. For tables with three axes, axis 2 raises although it is the same as -1, and axis 1 returns the template transposed although it is the same as
-2. -/
theorem C103_three_axes {α : Type*} (table : ND α) (n a b k : ℕ) (hs : table.shape = [n, a, b]) (hk : k < n) :
    estimateAlong (fun x => x.row k) table 2 = .error .valueError ∧
    (∃ out, estimateAlong (fun x => x.row k) table 1 = .ok out ∧ out.shape = [b, a] ∧ ∀ i j, out.get [j, i] = table.get [k, i, j]) ∧
    (∃ out, estimateAlong (fun x => x.row k) table (-1) = .ok out ∧ out.shape = [a, b] ∧ ∀ i j, out.get [i, j] = table.get [k, i, j]) ∧
    (∃ out, estimateAlong (fun x => x.row k) table (-2) = .ok out ∧ out.shape = [a, b] ∧ ∀ i j, out.get [i, j] = table.get [k, i, j]) := by
  have n3 : ∀ z : ℤ, ∀ m : ℕ, (-3 ≤ z ∧ z < 3 ∧ (if z < 0 then z + 3 else z) = m) → normAxis 3 z = .ok m := by
    rintro z m ⟨h1, h2, h3⟩
    unfold normAxis
    rw [if_pos (by constructor <;> push_cast <;> omega)]
    congr 1
    split_ifs at h3 ⊢ <;> push_cast <;> omega
  have n2 : ∀ z : ℤ, ∀ m : ℕ, (-2 ≤ z ∧ z < 2 ∧ (if z < 0 then z + 2 else z) = m) → normAxis 2 z = .ok m := by
    rintro z m ⟨h1, h2, h3⟩
    unfold normAxis
    rw [if_pos (by constructor <;> push_cast <;> omega)]
    congr 1
    split_ifs at h3 ⊢ <;> push_cast <;> omega
  have hl : table.shape.length = 3 := by rw [hs]; rfl
  have e2 : normAxis 2 2 = .error .valueError := by unfold normAxis; rw [if_neg (by norm_num)]
  refine ⟨?_, ?_, ?_, ?_⟩
  · unfold estimateAlong swapaxes row
    rw [hl, n3 2 2 (by norm_num), n3 (-1) 2 (by norm_num), hs]
    simp only [swapList, List.set, List.getD_cons_succ, List.getD_cons_zero, hk, if_true, List.length_cons, List.length_nil, n2 (-1) 1 (by norm_num), e2]
  · refine ⟨⟨[b, a], fun idx => table.get (swapList 1 2 (k :: swapList 1 1 idx))⟩, ?_, ?_, ?_⟩
    · unfold estimateAlong swapaxes row
      rw [hl, n3 1 1 (by norm_num), n3 (-1) 2 (by norm_num), hs]
      simp only [swapList, List.set, List.getD_cons_succ, List.getD_cons_zero, hk, if_true, List.length_cons, List.length_nil, n2 (-1) 1 (by norm_num), n2 1 1 (by norm_num)]
    · rfl
    · intro i j; rfl
  · refine ⟨⟨[a, b], fun idx => table.get (swapList 2 2 (k :: swapList 1 1 idx))⟩, ?_, ?_, ?_⟩
    · unfold estimateAlong swapaxes row
      rw [hl, n3 (-1) 2 (by norm_num), hs]
      simp only [swapList, List.set, List.getD_cons_succ, List.getD_cons_zero, hk, if_true, List.length_cons, List.length_nil, n2 (-1) 1 (by norm_num)]
    · rfl
    · intro i j; rfl
  · refine ⟨⟨[a, b], fun idx => table.get (swapList 1 2 (k :: swapList 1 0 idx))⟩, ?_, ?_, ?_⟩
    · unfold estimateAlong swapaxes row
      rw [hl, n3 (-2) 1 (by norm_num), n3 (-1) 2 (by norm_num), hs]
      simp only [swapList, List.set, List.getD_cons_succ, List.getD_cons_zero, hk, if_true, List.length_cons, List.length_nil, n2 (-1) 1 (by norm_num), n2 (-2) 0 (by norm_num)]
    · rfl
    · intro i j; rfl

/-- **C103** With a negative axis number (other than the axis of the grid points) the template of the nearest point is returned as it was given. -/
theorem C103_negative_axis {α : Type*} (table : ND α) (n : ℕ) (s : List ℕ) (hs : table.shape = n :: s) (k : ℕ) (hk : k < n) (axis : ℤ) (h1 : axis < 0) (h2 : -(s.length : ℤ) ≤ axis) :
    ∃ out, estimateAlong (fun x => x.row k) table axis = .ok out ∧ out.shape = s ∧ ∀ idx, Valid s idx → out.get idx = table.get (k :: idx) := by
  have hspos : 0 < s.length := by omega
  have hl : table.shape.length = s.length + 1 := by rw [hs]; rfl
  obtain ⟨ax, hax⟩ : ∃ ax : ℕ, (axis + s.length).toNat = ax := ⟨_, rfl⟩
  have haxl : ax < s.length := by omega
  have e1 : normAxis (s.length + 1) axis = .ok (ax + 1) := by
    unfold normAxis
    rw [if_pos (by constructor <;> push_cast <;> omega), if_pos h1]
    congr 1
    omega
  have e2 : normAxis s.length axis = .ok ax := by
    unfold normAxis
    rw [if_pos (by constructor <;> omega), if_pos h1, hax]
  obtain ⟨m, s', rfl⟩ : ∃ m s', s = m :: s' := by
    cases s with
    | nil => simp at hspos
    | cons m s' => exact ⟨m, s', rfl⟩
  have hsw : swapList (ax + 1) ((m :: s').length + 1 - 1) (n :: m :: s') = n :: swapList ax ((m :: s').length - 1) (m :: s') := by
    have : (m :: s').length + 1 - 1 = ((m :: s').length - 1) + 1 := by simp
    rw [this]
    simp only [swapList, List.set_cons_succ, List.getD_cons_succ]
  obtain ⟨m2, s2, hm2⟩ : ∃ m2 s2, swapList ax ((m :: s').length - 1) (m :: s') = m2 :: s2 := by
    cases h : swapList ax ((m :: s').length - 1) (m :: s') with
    | nil => have := congrArg List.length h; rw [length_swapList] at this; simp at this
    | cons m2 s2 => exact ⟨m2, s2, rfl⟩
  have hswap : table.swapaxes axis (-1) = .ok ⟨n :: m2 :: s2, fun idx => table.get (swapList (ax + 1) ((m :: s').length + 1 - 1) idx)⟩ := by
    unfold swapaxes
    rw [hl, e1, normAxis_neg_one (by omega), hs]
    simp only [hsw, hm2]
  have hlen2 : (m2 :: s2).length = (m :: s').length := by rw [← hm2, length_swapList]
  refine ⟨⟨swapList ((m :: s').length - 1) ax (m2 :: s2), fun idx => table.get (swapList (ax + 1) ((m :: s').length + 1 - 1) (k :: swapList ((m :: s').length - 1) ax idx))⟩, ?_, ?_, ?_⟩
  · unfold estimateAlong
    rw [hswap]
    simp only [row, hk, if_true]
    unfold swapaxes
    simp only [hlen2]
    rw [normAxis_neg_one (by omega), e2]
  · show swapList ((m :: s').length - 1) ax (m2 :: s2) = m :: s'
    rw [← hm2, swapList_comm (i := ax) (by omega) (by omega)]
    exact swapList_swapList (by omega) (by omega)
  · intro idx hidx
    have hil := valid_length hidx
    show table.get _ = _
    congr 1
    have : (m :: s').length + 1 - 1 = ((m :: s').length - 1) + 1 := by simp
    rw [this]
    simp only [swapList, List.set_cons_succ, List.getD_cons_succ]
    congr 1
    have h3 := swapList_swapList (i := (m :: s').length - 1) (j := ax) (l := idx) (by omega) (by omega)
    rw [swapList_comm (l := swapList ((m :: s').length - 1) ax idx) (by rw [length_swapList]; omega) (by rw [length_swapList]; omega)] at h3
    exact h3

/-- where axis `j` of the estimate comes from (as an axis of the template with `m` axes), for the axis number `p` of the table -/
def rotatedAxis (m p j : ℕ) : ℕ := if j + 1 = p then m - 1 else if j = p then p - 1 else if j = m - 1 then p else j

/-- **C103** With a non-negative axis number (other than 0, the axis of the grid points): the number of the last axis raises ValueError. With every other one the
template of the nearest point is returned with the axes rotated: the axis given by the number (axis `p - 1` of the template) becomes the following one, that one becomes
the last one, and the last one takes its place (for the next to last axis: both are exchanged). -/
theorem C103_nonnegative_axis {α : Type*} (table : ND α) (n : ℕ) (s : List ℕ) (hs : table.shape = n :: s) (k : ℕ) (hk : k < n) (p : ℕ) (h1 : 1 ≤ p) (h2 : p ≤ s.length) :
    (p = s.length → estimateAlong (fun x => x.row k) table p = .error .valueError) ∧
    (p < s.length → ∃ out, estimateAlong (fun x => x.row k) table p = .ok out ∧ out.shape.length = s.length ∧
      (∀ j < s.length, out.shape.getD j 0 = s.getD (rotatedAxis s.length p j) 0) ∧
      ∀ idx idx' : List ℕ, idx.length = s.length → idx'.length = s.length → (∀ j < s.length, idx'.getD (rotatedAxis s.length p j) 0 = idx.getD j 0) →
        out.get idx = table.get (k :: idx')) := by
  have hl : table.shape.length = s.length + 1 := by rw [hs]; rfl
  obtain ⟨q, rfl⟩ : ∃ q, p = q + 1 := ⟨p - 1, by omega⟩
  have e1 : normAxis (s.length + 1) ((q + 1 : ℕ) : ℤ) = .ok (q + 1) := by
    unfold normAxis
    rw [if_pos (by constructor <;> push_cast <;> omega), if_neg (by push_cast; omega)]
    congr 1
  have hswap : table.swapaxes ((q + 1 : ℕ) : ℤ) (-1) =
      .ok ⟨n :: swapList q (s.length - 1) s, fun idx => table.get (swapList (q + 1) s.length idx)⟩ := by
    unfold swapaxes
    rw [hl, e1, normAxis_neg_one (by omega), hs]
    have : swapList (q + 1) (s.length + 1 - 1) (n :: s) = n :: swapList q (s.length - 1) s := by
      have : s.length + 1 - 1 = (s.length - 1) + 1 := by omega
      rw [this]
      simp only [swapList, List.set_cons_succ, List.getD_cons_succ]
    rw [Nat.add_sub_cancel] at this ⊢
    simp only [this]
  have hcons : ∃ m2 s2, swapList q (s.length - 1) s = m2 :: s2 := by
    cases h : swapList q (s.length - 1) s with
    | nil => have := congrArg List.length h; rw [length_swapList, List.length_nil] at this; omega
    | cons m2 s2 => exact ⟨m2, s2, rfl⟩
  obtain ⟨m2, s2, hm2⟩ := hcons
  have hlen2 : (m2 :: s2).length = s.length := by rw [← hm2, length_swapList]
  have hrow : (⟨n :: swapList q (s.length - 1) s, fun idx => table.get (swapList (q + 1) s.length idx)⟩ : ND α).row k =
      .ok ⟨m2 :: s2, fun idx => table.get (swapList (q + 1) s.length (k :: idx))⟩ := by
    simp only [row, hm2, hk, if_true]
  constructor
  · intro hp
    unfold estimateAlong
    rw [hswap]
    simp only [hrow]
    unfold swapaxes
    simp only [hlen2]
    have : normAxis s.length ((q + 1 : ℕ) : ℤ) = .error .valueError := by unfold normAxis; rw [if_neg (by push_cast; omega)]
    rw [normAxis_neg_one (by omega), this]
  · intro hp
    have e2 : normAxis s.length ((q + 1 : ℕ) : ℤ) = .ok (q + 1) := by
      unfold normAxis
      rw [if_pos (by constructor <;> push_cast <;> omega), if_neg (by push_cast; omega)]
      congr 1
    refine ⟨⟨swapList (s.length - 1) (q + 1) (m2 :: s2), fun idx => table.get (swapList (q + 1) s.length (k :: swapList (s.length - 1) (q + 1) idx))⟩, ?_, ?_, ?_, ?_⟩
    · unfold estimateAlong
      rw [hswap]
      simp only [hrow]
      unfold swapaxes
      simp only [hlen2]
      rw [normAxis_neg_one (by omega), e2]
    · rw [length_swapList, hlen2]
    · intro j hj
      show (swapList (s.length - 1) (q + 1) (m2 :: s2)).getD j 0 = _
      rw [getD_swapList (by omega) (by omega), ← hm2]
      simp only [getD_swapList (show q < s.length by omega) (show s.length - 1 < s.length by omega)]
      unfold rotatedAxis
      by_cases c1 : j + 1 = q + 1
      · have : j = q := by omega
        subst this
        simp [show j ≠ s.length - 1 by omega]
      · by_cases c2 : j = q + 1
        · subst c2; simp
        · by_cases c3 : j = s.length - 1
          · rw [if_neg c2, if_pos c3, if_neg c1, if_neg c2, if_pos c3, if_neg (by omega), if_neg (by omega)]
          · rw [if_neg c2, if_neg c3, if_neg c3, if_neg (by omega), if_neg c1, if_neg c2, if_neg c3]
    · intro idx idx' hi hi' hidx
      show table.get _ = _
      congr 1
      have : s.length = (s.length - 1) + 1 := by omega
      rw [this]
      simp only [swapList, List.set_cons_succ, List.getD_cons_succ]
      congr 1
      have hfold : ∀ (a b : ℕ) (l : List ℕ), (l.set a (l.getD b 0)).set b (l.getD a 0) = swapList a b l := fun _ _ _ => rfl
      simp only [Nat.add_sub_cancel, hfold]
      refine ext_getD (by simp [length_swapList, hi, hi']) fun j hj => ?_
      simp only [length_swapList, hi] at hj
      rw [getD_swapList (by rw [length_swapList]; omega) (by rw [length_swapList]; omega)]
      simp only [getD_swapList (show s.length - 1 < idx.length by omega) (show q + 1 < idx.length by omega)]
      by_cases c1 : j = s.length - 1
      · subst c1
        have := hidx q (by omega)
        unfold rotatedAxis at this
        rw [if_pos rfl] at this
        rw [if_pos rfl, if_neg (by omega), if_neg (by omega), this]
      · rw [if_neg c1]
        by_cases c2 : j = q
        · subst c2
          have := hidx (j + 1) (by omega)
          unfold rotatedAxis at this
          rw [if_neg (by omega), if_pos rfl, Nat.add_sub_cancel] at this
          rw [if_pos rfl, this]
          by_cases c3 : s.length - 1 = j + 1
          · rw [if_pos c3, c3]
          · rw [if_neg c3, if_pos trivial]
        · rw [if_neg c2]
          by_cases c3 : j = q + 1
          · subst c3
            have := hidx (s.length - 1) (by omega)
            unfold rotatedAxis at this
            rw [if_neg (by omega), if_neg (by omega), if_pos rfl] at this
            rw [if_pos rfl, this]
          · have := hidx j hj
            unfold rotatedAxis at this
            rw [if_neg (by omega), if_neg c3, if_neg c1] at this
            rw [if_neg c3, if_neg c1, this]

/-! ## C66: keyword arguments -/

/-- A class can be used by PSFTableEstimator with these keyword arguments. -/
def UsableForPsf (c : PdfClass) (kwargs : Option (List Kwarg)) : Prop := c ≠ .nearestNeighbor ∧ ∀ k ∈ kwargs.getD [], c.accepts k = true

theorem construct_psfKwargs (c : PdfClass) (kw : Option (List Kwarg)) :
    (UsableForPsf c kw ∧ c.construct (psfKwargs kw) = .ok ()) ∨ (¬ UsableForPsf c kw ∧ c.construct (psfKwargs kw) = .error .typeError) := by
  have hm : ∀ k, k ∈ psfKwargs kw ↔ k ∈ kw.getD [] ∨ k = .normalization := by
    intro k
    unfold psfKwargs setDefault
    split
    · next h => exact ⟨Or.inl, fun h' => h'.elim id fun e => e ▸ h⟩
    · simp
  have hn : c.accepts .normalization = true ↔ c ≠ .nearestNeighbor := by cases c <;> simp [PdfClass.accepts]
  unfold PdfClass.construct
  by_cases h : (psfKwargs kw).all c.accepts = true
  · left
    rw [if_pos h]
    rw [List.all_eq_true] at h
    exact ⟨⟨hn.mp (h _ ((hm _).mpr (Or.inr rfl))), fun k hk => h k ((hm k).mpr (Or.inl hk))⟩, rfl⟩
  · right
    rw [if_neg h]
    refine ⟨fun hu => h (List.all_eq_true.mpr fun k hk => ?_), rfl⟩
    rcases (hm k).mp hk with hk | rfl
    · exact hu.2 k hk
    · exact hn.mpr hu.1

/-- **C66** Construction succeeds exactly if neither class is the nearest neighbor searcher and every keyword argument is one that the class accepts;
otherwise it raises TypeError. -/
theorem C66_psf_classes (interp : PdfClass) (ikwargs : Option (List Kwarg)) (extrap : Option PdfClass) (xkwargs : Option (List Kwarg)) :
    ((UsableForPsf interp ikwargs ∧ ∀ x, extrap = some x → UsableForPsf x xkwargs) → psfConstruct interp ikwargs extrap xkwargs = .ok ()) ∧
    (¬ (UsableForPsf interp ikwargs ∧ ∀ x, extrap = some x → UsableForPsf x xkwargs) → psfConstruct interp ikwargs extrap xkwargs = .error .typeError) := by
  unfold psfConstruct
  obtain ⟨hu, hc⟩ | ⟨hu, hc⟩ := construct_psfKwargs interp ikwargs
  · rw [hc]
    cases extrap with
    | none => exact ⟨fun _ => rfl, fun h => absurd ⟨hu, by simp⟩ h⟩
    | some x =>
      obtain ⟨hx, hcx⟩ | ⟨hx, hcx⟩ := construct_psfKwargs x xkwargs
      · exact ⟨fun _ => hcx, fun h => absurd ⟨hu, fun y hy => by cases hy; exact hx⟩ h⟩
      · exact ⟨fun h => absurd (h.2 x rfl) hx, fun _ => hcx⟩
  · rw [hc]
    exact ⟨fun h => absurd h.1 hu, fun _ => rfl⟩

/-- **C66** In particular the nearest neighbor searcher, which is registered as interpolator and extrapolator of PDFs, is always rejected. -/
theorem C66_nearest_neighbor (ikwargs xkwargs : Option (List Kwarg)) (interp : PdfClass) (extrap : Option PdfClass) :
    psfConstruct .nearestNeighbor ikwargs extrap xkwargs = .error .typeError ∧
    psfConstruct interp ikwargs (some .nearestNeighbor) xkwargs = .error .typeError :=
  ⟨(C66_psf_classes _ _ _ _).2 fun h => h.1.1 rfl, (C66_psf_classes _ _ _ _).2 fun h => (h.2 _ rfl).1 rfl⟩

/-! ## C104: the caller's dictionaries -/

/-- **C104** The dictionary can change: constructing a PSFTableEstimator adds an entry to the caller's dictionary of keyword arguments. -/
theorem C104_kwargs_can_change : ∃ kwargs : Option (List Kwarg), callerKwargsAfter kwargs ≠ kwargs := ⟨some [.quantileResolution], by decide⟩

/-- **C104** The caller's dictionary is unchanged exactly if none was passed or it contains a normalization. -/
theorem C104_kwargs_unchanged_iff (kwargs : Option (List Kwarg)) : callerKwargsAfter kwargs = kwargs ↔ ∀ l, kwargs = some l → Kwarg.normalization ∈ l := by
  cases kwargs with
  | none => simp [callerKwargsAfter]
  | some l =>
    simp only [callerKwargsAfter, Option.map_some, Option.some.injEq, forall_eq']
    unfold setDefault
    split
    · next h => simp [h]
    · next h => simp [h]

/-- **C104** What is written: entries that were there stay, in order, and a missing normalization is appended. -/
theorem C104_kwargs_values (l : List Kwarg) :
    callerKwargsAfter (some l) = some (if Kwarg.normalization ∈ l then l else l ++ [.normalization]) := rfl

/-! ## The hypotheses can be met -/

example : UsableForPsf .momentMorph none ∧ UsableForPsf .quantile (some [.quantileResolution]) ∧ ¬ UsableForPsf .momentMorph (some [.normOrd]) := by
  simp [UsableForPsf, PdfClass.accepts]

/-- a table with four axes: axis 1 gives the template with rotated axes -/
example : ∃ out, estimateAlong (fun x => x.row 1) (⟨[2, 3, 4, 5], fun idx => idx⟩ : ND (List ℕ)) 1 = .ok out ∧ out.shape = [5, 3, 4] ∧ out.get [4, 2, 3] = [1, 2, 3, 4] :=
  ⟨_, rfl, rfl, rfl⟩

/-- a cellwise estimator: the mean over the grid points -/
noncomputable def meanEst (x : ND ℝ) : Except Err (ND ℝ) :=
  .ok ⟨x.shape.set 0 1, fun idx => ((List.range (x.shape.getD 0 0)).map fun k => x.get (idx.set 0 k)).sum / x.shape.getD 0 0⟩

example : Cellwise meanEst fun n _ f b => ((List.range n).map fun k => f k b).sum / n := by
  intro x hx
  refine ⟨_, rfl, rfl, fun idx hidx => ?_⟩
  have hl := (valid_iff.mp hidx).1
  simp only [List.length_set] at hl
  show (List.map _ _).sum / _ = _
  congr 3
  funext k
  congr 1
  refine ext_getD (by simp) fun j hj => ?_
  simp only [List.length_set] at hj
  simp only [getD_set, List.length_set]
  by_cases e : j = x.shape.length - 1
  · have h1 : ¬ (j = 0 ∧ 0 < idx.length) := by omega
    have h2 : j = x.shape.length - 1 ∧ x.shape.length - 1 < idx.length := by omega
    rw [if_pos h2, if_neg h1, e]
  · have h2 : ¬ (j = x.shape.length - 1 ∧ x.shape.length - 1 < idx.length) := by omega
    simp only [h2, if_false]

end Pyirf.Interpolation
