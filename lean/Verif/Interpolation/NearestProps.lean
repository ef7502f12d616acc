import Verif.Interpolation.NearestModel

/-! # Properties C48, C91: nearest neighbour search -/
set_option linter.unusedSectionVars false
set_option linter.unusedSimpArgs false

namespace Pyirf.Interpolation
open Pyirf Pyirf.Np

/-! ## Lemmas -/

theorem argminR_spec {l : List ℝ} (h : l ≠ []) :
    ∃ (i : ℕ) (hi : i < l.length), argminR l = .ok i ∧ (∀ (j : ℕ) (hj : j < l.length), l[i] ≤ l[j]) ∧
      ∀ (j : ℕ) (hj : j < i), l[i] < l[j]'(hj.trans hi) := by
  unfold argminR
  rw [if_neg h]
  set P : ℝ → Bool := fun x => l.all fun y => decide (x ≤ y) with hP
  have hex : ∃ x ∈ l, P x = true := by
    have : ∃ x ∈ l, ∀ y ∈ l, x ≤ y := by
      clear hP P
      induction l with
      | nil => exact absurd rfl h
      | cons a l ih =>
        by_cases hl : l = []
        · subst hl; exact ⟨a, by simp, by simp⟩
        · obtain ⟨x, hx, hm⟩ := ih hl
          rcases le_total a x with hax | hax
          · refine ⟨a, by simp, ?_⟩
            intro y hy
            rcases List.mem_cons.mp hy with rfl | hy
            · exact le_rfl
            · exact hax.trans (hm y hy)
          · refine ⟨x, by simp [hx], ?_⟩
            intro y hy
            rcases List.mem_cons.mp hy with rfl | hy
            · exact hax
            · exact hm y hy
    obtain ⟨x, hx, hm⟩ := this
    exact ⟨x, hx, by simpa [hP] using hm⟩
  have hi : l.findIdx P < l.length := List.findIdx_lt_length_of_exists hex
  have hPi : P l[l.findIdx P] = true := List.findIdx_getElem
  refine ⟨_, hi, rfl, ?_, ?_⟩
  · intro j hj
    simp only [hP, List.all_eq_true, decide_eq_true_eq] at hPi
    exact hPi _ (List.getElem_mem hj)
  · intro j hj
    have hn : P (l[j]'(hj.trans hi)) = false := by
      have := List.not_of_lt_findIdx hj
      simpa using this
    simp only [hP, List.all_eq_false, decide_eq_true_eq, not_le] at hn
    obtain ⟨y, hy, hlt⟩ := hn
    simp only [hP, List.all_eq_true, decide_eq_true_eq] at hPi
    exact lt_of_le_of_lt (hPi y hy) hlt

theorem pDist_nonneg (p : ℕ) (a b : List ℝ) : 0 ≤ pDist p a b := by
  unfold pDist
  apply Real.rpow_nonneg
  apply List.sum_nonneg
  intro x hx
  rw [List.zipWith_eq_zipWith_take_min] at hx
  obtain ⟨i, hi, rfl⟩ := List.mem_iff_getElem.mp hx
  simp

theorem pDist_eq_zero {p : ℕ} (hp : 0 < p) {a b : List ℝ} (hl : a.length = b.length) : pDist p a b = 0 ↔ a = b := by
  have hnn : ∀ (a b : List ℝ), 0 ≤ (List.zipWith (fun x y => |x - y| ^ p) a b).sum := by
    intro a b
    apply List.sum_nonneg
    intro x hx
    obtain ⟨i, hi, rfl⟩ := List.mem_iff_getElem.mp hx
    simp
  unfold pDist
  rw [Real.rpow_eq_zero (hnn a b) (by positivity)]
  induction a generalizing b with
  | nil => cases b <;> simp_all
  | cons x a ih =>
    cases b with
    | nil => simp at hl
    | cons y b =>
      simp only [List.zipWith_cons_cons, List.sum_cons, List.cons.injEq]
      have h1 : 0 ≤ |x - y| ^ p := by positivity
      have h2 : (List.zipWith (fun x y => |x - y| ^ p) a b).sum = 0 ↔ a = b := by
        apply ih; simpa using hl
      rw [add_eq_zero_iff_of_nonneg h1 (hnn a b), h2]
      have : |x - y| ^ p = 0 ↔ x = y := by
        rw [pow_eq_zero_iff (by omega), abs_eq_zero, sub_eq_zero]
      rw [this]

/-- the accepted orders -/
theorem checkOrd_ok_iff (o : NormOrd) (p : ℕ) : checkOrd o = .ok p ↔ 0 < p ∧ o = .num (.fin (p : ℝ)) := by
  unfold checkOrd
  rcases o with _ | x
  · simp
  · cases x with
    | nan => simp [FV.isFinite]
    | ninf => simp [FV.isFinite]
    | pinf => simp [FV.isFinite]
    | fin v =>
      simp only [FV.le_fin, FV.isFinite, Bool.not_true, Bool.or_false, decide_eq_true_eq, NormOrd.num.injEq, FV.fin.injEq]
      by_cases hv : v ≤ 0
      · rw [if_pos hv]
        simp only [reduceCtorEq, false_iff, not_and]
        intro hp he
        have : (0:ℝ) < p := by exact_mod_cast hp
        linarith
      · rw [if_neg hv]
        by_cases hf : v ≠ ⌊v⌋
        · rw [if_pos hf]
          simp only [reduceCtorEq, false_iff, not_and]
          intro hp he
          rw [he] at hf
          simp at hf
        · rw [if_neg hf]
          simp only [not_not] at hf
          have hpos : 0 < ⌊v⌋ := by
            have : (0:ℝ) < (⌊v⌋ : ℝ) := by rw [← hf]; linarith
            exact_mod_cast this
          constructor
          · intro h
            have := Except.ok.inj h
            refine ⟨by omega, ?_⟩
            rw [← this, hf]
            have : ((⌊v⌋.toNat : ℤ) : ℝ) = (⌊v⌋ : ℝ) := by rw [Int.toNat_of_nonneg hpos.le]
            simp only [Int.floor_intCast]
            exact_mod_cast this.symm
          · rintro ⟨hp, he⟩
            rw [he]; simp

/-! ## C48 -/

/-- **C48** For an order `p = 1, 2, ...`, grid points and target with the same number of coordinates, and values with at least two axes and one entry per grid
point along the first: the result is the entry of `values` of a grid point with the smallest p-norm distance to the target, the first such
point. (The p-norm distance of equally long coordinate lists is `(sum |x_i - y_i|^p)^(1/p)`.) -/
theorem C48_nearest {α : Type*} (p : ℕ) (hp : 0 < p) (grid : List (List ℝ)) (hg : grid ≠ []) (values : ND α) (m : ℕ) (s : List ℕ)
    (hs : values.shape = grid.length :: m :: s) (t : List ℝ) :
    ∃ (i : ℕ) (hi : i < grid.length),
      (∀ (j : ℕ) (hj : j < grid.length), pDist p grid[i] t ≤ pDist p grid[j] t) ∧
      (∀ (j : ℕ) (hj : j < i), pDist p grid[i] t < pDist p (grid[j]'(hj.trans hi)) t) ∧
      nearestNeighbor (.num (.fin p)) grid values t = .ok ⟨m :: s, fun idx => values.get (i :: idx)⟩ := by
  obtain ⟨i, hi, h1, h2, h3⟩ := argminR_spec (l := grid.map fun g => pDist p g t) (by simpa using hg)
  have hi' : i < grid.length := by simpa using hi
  refine ⟨i, hi', ?_, ?_, ?_⟩
  · intro j hj
    have := h2 j (by simpa using hj)
    simpa using this
  · intro j hj
    have := h3 j hj
    simpa using this
  · unfold nearestNeighbor
    rw [(checkOrd_ok_iff _ _).mpr ⟨hp, rfl⟩]
    simp only [h1]
    unfold ND.row
    rw [hs]
    simp [hi']

/-- **C48** At a grid point (distinct points, all with the dimension of the target) the entry of that point is returned, for every order. -/
theorem C48_at_grid_point {α : Type*} (p : ℕ) (hp : 0 < p) (grid : List (List ℝ)) (hnd : grid.Nodup) (values : ND α) (m : ℕ) (s : List ℕ)
    (hs : values.shape = grid.length :: m :: s) (k : ℕ) (hk : k < grid.length) (hdim : ∀ g ∈ grid, g.length = (grid[k]).length) :
    nearestNeighbor (.num (.fin p)) grid values grid[k] = .ok ⟨m :: s, fun idx => values.get (k :: idx)⟩ := by
  have hg : grid ≠ [] := by rintro rfl; simp at hk
  obtain ⟨i, hi, h1, -, h3⟩ := C48_nearest p hp grid hg values m s hs grid[k]
  have hz : pDist p grid[i] grid[k] = 0 := by
    have := h1 k hk
    rw [(pDist_eq_zero hp rfl).mpr rfl] at this
    exact le_antisymm this (pDist_nonneg _ _ _)
  rw [pDist_eq_zero hp (hdim _ (List.getElem_mem hi))] at hz
  have : i = k := by
    have := (List.nodup_iff_injective_getElem.mp hnd) (a₁ := ⟨i, hi⟩) (a₂ := ⟨k, hk⟩) hz
    simpa using this
  rw [h3, this]

/-- **C48** Exactly the positive integers are accepted as order; anything else raises ValueError. -/
theorem C48_order (o : NormOrd) : (∃ p, 0 < p ∧ o = .num (.fin ((p : ℕ) : ℝ)) ∧ checkOrd o = .ok p) ∨ checkOrd o = .error .valueError := by
  rcases h : checkOrd o with e | p
  · right
    unfold checkOrd at h
    rcases o with _ | x
    · cases h; rfl
    · simp only [] at h
      split at h
      · cases h; rfl
      · cases x with
        | fin v => simp only [] at h; split at h <;> cases h; rfl
        | nan => cases h; rfl
        | ninf => cases h; rfl
        | pinf => cases h; rfl
  · left
    obtain ⟨h1, h2⟩ := (checkOrd_ok_iff o p).mp h
    exact ⟨p, h1, h2, rfl⟩

/-! ## C91 -/

/-- The claim of **C91**: the nearest neighbour searchers return, as documented and as every other interpolator does, an array of shape
`(1, ...)`, for every shape `(n_points, ...)` of the values. -/
def ReturnsLeadingAxis : Prop :=
  ∀ (grid : List (List ℝ)) (values : ND ℝ) (s : List ℕ) (t : List ℝ), grid ≠ [] → values.shape = grid.length :: s →
    ∃ r, nearestNeighbor (.num (.fin 2)) grid values t = .ok r ∧ r.shape = 1 :: s

/-- **C91** The shape is that of the values without the first axis; values without further axes raise IndexError. -/
theorem C91_shape {α : Type*} (p : ℕ) (hp : 0 < p) (grid : List (List ℝ)) (hg : grid ≠ []) (values : ND α) (s : List ℕ)
    (hs : values.shape = grid.length :: s) (t : List ℝ) :
    (s ≠ [] → ∃ r, nearestNeighbor (.num (.fin p)) grid values t = .ok r ∧ r.shape = s) ∧
    (s = [] → nearestNeighbor (.num (.fin p)) grid values t = .error .indexError) := by
  constructor
  · intro h
    rcases s with _ | ⟨m, s⟩
    · exact absurd rfl h
    · obtain ⟨i, hi, -, -, e⟩ := C48_nearest p hp grid hg values m s hs t
      exact ⟨_, e, rfl⟩
  · rintro rfl
    obtain ⟨i, hi, h1, -⟩ := argminR_spec (l := grid.map fun g => pDist p g t) (by simpa using hg)
    unfold nearestNeighbor
    rw [(checkOrd_ok_iff _ _).mpr ⟨hp, rfl⟩]
    simp only [h1]
    unfold ND.row
    rw [hs]

/-- **C91** (deviation) for every input the leading axis of length one is missing. -/
theorem C91_no_leading_axis : ¬ ReturnsLeadingAxis := by
  intro H
  obtain ⟨r, e, hr⟩ := H [[0], [1]] ⟨[2, 3], fun _ => 0⟩ [3] [0] (by simp) rfl
  obtain ⟨r', e', hr'⟩ := (C91_shape 2 (by norm_num) [[0], [1]] (by simp) (⟨[2, 3], fun _ => 0⟩ : ND ℝ) [3] rfl [0]).1 (by simp)
  have h2 : (((2 : ℕ) : ℝ)) = 2 := by norm_num
  rw [h2] at e'
  rw [e] at e'
  rw [← Except.ok.inj e', hr] at hr'
  simp at hr'

/-! ## The hypotheses are satisfiable -/

example : ([[0, 0], [1, 0], [0, 2]] : List (List ℝ)).Nodup ∧ (∀ g ∈ ([[0, 0], [1, 0], [0, 2]] : List (List ℝ)), g.length = 2) ∧
    (⟨[3, 5, 2], fun _ => 0⟩ : ND ℝ).shape = ([[0, 0], [1, 0], [0, 2]] : List (List ℝ)).length :: 5 :: [2] := by
  refine ⟨by simp, by simp, rfl⟩

end Pyirf.Interpolation
