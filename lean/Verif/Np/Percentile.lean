import Verif.Np.FV
import Mathlib.Algebra.Order.Floor.Ring
import Mathlib.Data.List.Sort
import Mathlib.Tactic.FieldSimp
import Mathlib.Tactic.Positivity

/-!
# numpy contract: (nan)percentile / (nan)quantile with linear interpolation

`np.nanpercentile(x, p)`: drop NaN, sort, read off the value at the (fractional) index `(n-1)*p/100`,
linear interpolation between neighbours. NaN if nothing is left, ValueError for `p` outside [0, 100].
Infinite values take part in the sorting; what numpy makes of an infinite neighbour depends on its version (infinite, or NaN from
`inf - inf` and `0 * inf`) and is left open (`lerpInf`).
-/
set_option linter.unusedSectionVars false

namespace Pyirf.Np
variable {K : Type*} [Field K] [LinearOrder K] [IsStrictOrderedRing K] [FloorRing K]

/-- The finite values of an array: its NaN and infinite entries removed. -/
def dropNan (xs : List (FV K)) : List K := xs.filterMap fun | .fin x => some x | _ => none

/-- The values of an array that are not NaN, in increasing order. -/
def sortNonNan (xs : List (FV K)) : List (FV K) :=
  xs.filter (fun | .ninf => true | _ => false) ++ ((dropNan xs).insertionSort (· ≤ ·)).map FV.fin ++
    xs.filter (fun | .pinf => true | _ => false)

/-- What numpy gives between the neighbours `a` and `b` if one of them is infinite. Left open: nothing is known about it. -/
opaque lerpInf {K : Type*} (a b : FV K) (t : K) : FV K := .nan

/-- `_lerp(a, b, t)`: linear interpolation between two neighbouring values -/
def lerp (a b : FV K) (t : K) : FV K :=
  match a, b with
  | .fin x, .fin y => .fin (x + (y - x) * t)
  | a, b => lerpInf a b t

/-- Value of a sorted array at the fractional index `(n-1)*q`. -/
def quantileSorted (s : List K) (q : K) : K :=
  let h := ((s.length : K) - 1) * q
  let i := ⌊h⌋.toNat
  let a := s.getD i 0
  let b := s.getD (min (i + 1) (s.length - 1)) 0
  a + (b - a) * (h - i)

/-- The value of `np.nanquantile(xs, q)` for a `q` in [0, 1]. -/
def quantileVal (xs : List (FV K)) (q : K) : FV K :=
  let s := sortNonNan xs
  if s = [] then .nan
  else
    let h := ((s.length : K) - 1) * q
    let i := ⌊h⌋.toNat
    lerp (s.getD i .nan) (s.getD (min (i + 1) (s.length - 1)) .nan) (h - i)

/-- `np.nanquantile(xs, q)` -/
def nanquantile (xs : List (FV K)) (q : K) : Except Err (FV K) :=
  if 0 ≤ q ∧ q ≤ 1 then .ok (quantileVal xs q) else .error .valueError

/-- `np.nanmedian(xs)`: the mean of the one or two middle values. -/
def medianVal (xs : List (FV K)) : FV K :=
  let s := sortNonNan xs
  let n := s.length
  if n = 0 then .nan
  else if n % 2 = 1 then s.getD (n / 2) .nan
  else (s.getD (n / 2 - 1) .nan + s.getD (n / 2) .nan) / .fin 2

/-- An array without infinite values. -/
def NoInf (xs : List (FV K)) : Prop := ∀ v ∈ xs, v ≠ .ninf ∧ v ≠ .pinf

/-- `np.nanpercentile(xs, p)` -/
def nanpercentile (xs : List (FV K)) (p : K) : Except Err (FV K) := nanquantile xs (p / 100)

/-! ## Lemmas -/

section
variable {s : List K}

theorem getD_mono (hs : s.Pairwise (· ≤ ·)) {i j : ℕ} (hij : i ≤ j) (hj : j < s.length) :
    s.getD i 0 ≤ s.getD j 0 := by
  rw [List.getD_eq_getElem?_getD, List.getD_eq_getElem?_getD, List.getElem?_eq_getElem hj,
    List.getElem?_eq_getElem (by omega : i < s.length)]
  simp only [Option.getD_some]
  rcases Nat.eq_or_lt_of_le hij with rfl | h
  · exact le_refl _
  · exact List.pairwise_iff_getElem.mp hs i j (by omega) hj h

/-- index bookkeeping for a nonempty array and `q` in [0,1] -/
theorem quantile_index (hn : s ≠ []) {q : K} (h0 : 0 ≤ q) (h1 : q ≤ 1) :
    (⌊((s.length : K) - 1) * q⌋.toNat : K) ≤ ((s.length : K) - 1) * q ∧
    ((s.length : K) - 1) * q < (⌊((s.length : K) - 1) * q⌋.toNat : K) + 1 ∧
    ⌊((s.length : K) - 1) * q⌋.toNat ≤ s.length - 1 := by
  have hl : 1 ≤ s.length := List.length_pos_iff.mpr hn
  have hl' : (0:K) ≤ (s.length : K) - 1 := by
    have : (1:K) ≤ (s.length : K) := by exact_mod_cast hl
    linarith
  have hh : 0 ≤ ((s.length : K) - 1) * q := mul_nonneg hl' h0
  have hf : 0 ≤ ⌊((s.length : K) - 1) * q⌋ := Int.floor_nonneg.mpr hh
  have hcast : ((⌊((s.length : K) - 1) * q⌋.toNat : ℕ) : K) = (⌊((s.length : K) - 1) * q⌋ : K) := by
    have : ((⌊((s.length : K) - 1) * q⌋.toNat : ℕ) : ℤ) = ⌊((s.length : K) - 1) * q⌋ := Int.toNat_of_nonneg hf
    exact_mod_cast congrArg (Int.cast : ℤ → K) this
  rw [hcast]
  refine ⟨Int.floor_le _, Int.lt_floor_add_one _, ?_⟩
  have : ⌊((s.length : K) - 1) * q⌋ ≤ ((s.length - 1 : ℕ) : ℤ) := by
    rw [Int.floor_le_iff]
    have : ((s.length - 1 : ℕ) : K) = (s.length : K) - 1 := by push_cast [hl]; ring
    rw [Int.cast_natCast, this]
    nlinarith
  omega

/-- the value lies between the neighbouring order statistics -/
theorem quantileSorted_bounds (hs : s.Pairwise (· ≤ ·)) (hn : s ≠ []) {q : K} (h0 : 0 ≤ q) (h1 : q ≤ 1) :
    s.getD ⌊((s.length : K) - 1) * q⌋.toNat 0 ≤ quantileSorted s q ∧
    quantileSorted s q ≤ s.getD (min (⌊((s.length : K) - 1) * q⌋.toNat + 1) (s.length - 1)) 0 := by
  have hl : 1 ≤ s.length := List.length_pos_iff.mpr hn
  obtain ⟨a1, a2, a3⟩ := quantile_index hn h0 h1
  set i := ⌊((s.length : K) - 1) * q⌋.toNat
  have hab : s.getD i 0 ≤ s.getD (min (i + 1) (s.length - 1)) 0 :=
    getD_mono hs (by omega) (by omega)
  unfold quantileSorted
  simp only []
  change s.getD i 0 ≤ s.getD i 0 + (s.getD (min (i + 1) (s.length - 1)) 0 - s.getD i 0) *
      (((s.length : K) - 1) * q - i) ∧ s.getD i 0 + (s.getD (min (i + 1) (s.length - 1)) 0 - s.getD i 0) *
      (((s.length : K) - 1) * q - i) ≤ _
  constructor <;> nlinarith

/-- upper bound by the order statistic at `⌈(n-1)q⌉` -/
theorem quantileSorted_le_ceil (hs : s.Pairwise (· ≤ ·)) (hn : s ≠ []) {q : K} (h0 : 0 ≤ q) (h1 : q ≤ 1) :
    quantileSorted s q ≤ s.getD ⌈((s.length : K) - 1) * q⌉.toNat 0 := by
  have hl : 1 ≤ s.length := List.length_pos_iff.mpr hn
  obtain ⟨a1, a2, a3⟩ := quantile_index hn h0 h1
  have hb := (quantileSorted_bounds hs hn h0 h1).2
  set h := ((s.length : K) - 1) * q with hh
  set i := ⌊h⌋.toNat
  have hcl : ⌈h⌉.toNat ≤ s.length - 1 := by
    have : ⌈h⌉ ≤ ((s.length - 1 : ℕ) : ℤ) := by
      rw [Int.ceil_le]
      have : ((s.length - 1 : ℕ) : K) = (s.length : K) - 1 := by push_cast [hl]; ring
      rw [Int.cast_natCast, this, hh]
      have : (0:K) ≤ (s.length : K) - 1 := by
        have : (1:K) ≤ (s.length : K) := by exact_mod_cast hl
        linarith
      nlinarith
    omega
  by_cases heq : h = (i : K)
  · have hq : quantileSorted s q = s.getD i 0 := by
      unfold quantileSorted
      simp only []
      change s.getD i 0 + (s.getD (min (i + 1) (s.length - 1)) 0 - s.getD i 0) * (h - i) = _
      rw [heq]; ring
    rw [hq]
    have : ⌈h⌉.toNat = i := by rw [heq, Int.ceil_natCast]; rfl
    rw [this]
  · have hlt : (i : K) < h := lt_of_le_of_ne a1 (fun hc => heq hc.symm)
    have hci : i + 1 ≤ ⌈h⌉.toNat := by
      have : (i : ℤ) < ⌈h⌉ := by rw [Int.lt_ceil]; exact_mod_cast hlt
      omega
    refine le_trans hb (getD_mono hs ?_ (by omega))
    omega

/-- quantiles are monotone in `q` -/
theorem quantileSorted_mono (hs : s.Pairwise (· ≤ ·)) (hn : s ≠ []) {q q' : K} (h0 : 0 ≤ q) (hqq : q ≤ q')
    (h1 : q' ≤ 1) : quantileSorted s q ≤ quantileSorted s q' := by
  have hl : 1 ≤ s.length := List.length_pos_iff.mpr hn
  obtain ⟨a1, a2, a3⟩ := quantile_index hn h0 (le_trans hqq h1)
  obtain ⟨b1, b2, b3⟩ := quantile_index hn (le_trans h0 hqq) h1
  have c1 := quantileSorted_bounds hs hn h0 (le_trans hqq h1)
  have c2 := quantileSorted_bounds hs hn (le_trans h0 hqq) h1
  have hl' : (0:K) ≤ (s.length : K) - 1 := by
    have : (1:K) ≤ (s.length : K) := by exact_mod_cast hl
    linarith
  have hhh : ((s.length : K) - 1) * q ≤ ((s.length : K) - 1) * q' := mul_le_mul_of_nonneg_left hqq hl'
  set h := ((s.length : K) - 1) * q with hh
  set h' := ((s.length : K) - 1) * q' with hh'
  set i := ⌊h⌋.toNat with hi
  set i' := ⌊h'⌋.toNat with hi'
  have hii : i ≤ i' := by
    have : ⌊h⌋ ≤ ⌊h'⌋ := Int.floor_mono hhh
    omega
  rcases Nat.eq_or_lt_of_le hii with heq | hlt
  · have hab : s.getD i 0 ≤ s.getD (min (i + 1) (s.length - 1)) 0 := getD_mono hs (by omega) (by omega)
    have e1 : quantileSorted s q
        = s.getD i 0 + (s.getD (min (i + 1) (s.length - 1)) 0 - s.getD i 0) * (h - i) := rfl
    have e2 : quantileSorted s q'
        = s.getD i' 0 + (s.getD (min (i' + 1) (s.length - 1)) 0 - s.getD i' 0) * (h' - i') := rfl
    rw [e1, e2, ← heq]
    nlinarith
  · refine le_trans c1.2 (le_trans (getD_mono hs ?_ (by omega)) c2.1)
    omega

/-- counting elements below an order statistic -/
theorem count_le_getD (hs : s.Pairwise (· ≤ ·)) {i : ℕ} (hi : i < s.length) {v : K} (hv : s.getD i 0 ≤ v) :
    i + 1 ≤ s.countP (fun x => decide (x ≤ v)) := by
  have h1 : s.countP (fun x => decide (x ≤ v))
      = (s.take (i+1)).countP (fun x => decide (x ≤ v)) + (s.drop (i+1)).countP (fun x => decide (x ≤ v)) := by
    rw [← List.countP_append, List.take_append_drop]
  have h2 : (s.take (i+1)).countP (fun x => decide (x ≤ v)) = (s.take (i+1)).length := by
    rw [List.countP_eq_length]
    intro x hx
    obtain ⟨j, hj, rfl⟩ := List.getElem_of_mem hx
    rw [List.length_take] at hj
    have := getD_mono hs (show j ≤ i by omega) hi
    rw [List.getElem_take]
    rw [List.getD_eq_getElem?_getD, List.getElem?_eq_getElem (by omega : j < s.length)] at this
    simp only [Option.getD_some] at this
    simpa using le_trans this hv
  rw [h1, h2, List.length_take]
  omega

/-- counting elements above an order statistic -/
theorem count_ge_getD (hs : s.Pairwise (· ≤ ·)) {i : ℕ} (hi : i < s.length) {v : K} (hv : v ≤ s.getD i 0) :
    s.length - i ≤ s.countP (fun x => decide (v ≤ x)) := by
  have h1 : s.countP (fun x => decide (v ≤ x))
      = (s.take i).countP (fun x => decide (v ≤ x)) + (s.drop i).countP (fun x => decide (v ≤ x)) := by
    rw [← List.countP_append, List.take_append_drop]
  have h2 : (s.drop i).countP (fun x => decide (v ≤ x)) = (s.drop i).length := by
    rw [List.countP_eq_length]
    intro x hx
    obtain ⟨j, hj, rfl⟩ := List.getElem_of_mem hx
    rw [List.length_drop] at hj
    have := getD_mono hs (show i ≤ i + j by omega) (by omega)
    rw [List.getElem_drop]
    rw [List.getD_eq_getElem?_getD (i := i + j), List.getElem?_eq_getElem (by omega : i + j < s.length)] at this
    simp only [Option.getD_some] at this
    simpa using le_trans hv this
  rw [h1, h2, List.length_drop]
  omega
end

theorem insertionSort_perm_eq {xs ys : List K} (h : xs.Perm ys) :
    xs.insertionSort (· ≤ ·) = ys.insertionSort (· ≤ ·) := by
  apply List.Perm.eq_of_pairwise' (r := (· ≤ ·))
  · exact List.pairwise_insertionSort _ _
  · exact List.pairwise_insertionSort _ _
  · exact ((List.perm_insertionSort _ _).trans h).trans (List.perm_insertionSort _ _).symm

theorem eq_of_const {α : Type*} {c : α} {xs ys : List α} (h : xs.Perm ys) (hc : ∀ v ∈ xs, v = c) : xs = ys := by
  have h1 : xs = List.replicate xs.length c := List.eq_replicate_iff.mpr ⟨rfl, hc⟩
  have h2 : ys = List.replicate ys.length c := List.eq_replicate_iff.mpr ⟨rfl, fun v hv => hc v (h.mem_iff.mpr hv)⟩
  rw [h1, h2, h.length_eq]

theorem sortNonNan_perm {xs ys : List (FV K)} (h : xs.Perm ys) : sortNonNan xs = sortNonNan ys := by
  have hp : (dropNan xs).Perm (dropNan ys) := h.filterMap _
  unfold sortNonNan
  rw [insertionSort_perm_eq hp]
  congr 1
  · congr 1
    exact eq_of_const (c := .ninf) (h.filter _) fun v hv => by
      have := (List.mem_filter.mp hv).2
      cases v <;> simp_all
  · exact eq_of_const (c := .pinf) (h.filter _) fun v hv => by
      have := (List.mem_filter.mp hv).2
      cases v <;> simp_all

theorem quantileVal_perm {xs ys : List (FV K)} (h : xs.Perm ys) (q : K) : quantileVal xs q = quantileVal ys q := by
  unfold quantileVal
  rw [sortNonNan_perm h]

theorem nanquantile_perm {xs ys : List (FV K)} (h : xs.Perm ys) (q : K) : nanquantile xs q = nanquantile ys q := by
  unfold nanquantile
  rw [quantileVal_perm h]

theorem medianVal_perm {xs ys : List (FV K)} (h : xs.Perm ys) : medianVal xs = medianVal ys := by
  unfold medianVal
  rw [sortNonNan_perm h]

theorem sortNonNan_noInf {xs : List (FV K)} (h : NoInf xs) :
    sortNonNan xs = ((dropNan xs).insertionSort (· ≤ ·)).map FV.fin := by
  unfold sortNonNan
  rw [List.filter_eq_nil_iff.mpr, List.filter_eq_nil_iff.mpr]
  · simp
  · intro v hv; have := h v hv; cases v <;> simp_all
  · intro v hv; have := h v hv; cases v <;> simp_all

theorem insertionSort_eq_nil {xs : List K} : xs.insertionSort (· ≤ ·) = [] ↔ xs = [] := by
  rw [← List.length_eq_zero_iff, List.length_insertionSort, List.length_eq_zero_iff]

/-- without infinite values it is the quantile of the finite values -/
theorem quantileVal_noInf {xs : List (FV K)} (h : NoInf xs) {q : K} (h0 : 0 ≤ q) (h1 : q ≤ 1) :
    quantileVal xs q = if dropNan xs = [] then .nan else .fin (quantileSorted ((dropNan xs).insertionSort (· ≤ ·)) q) := by
  unfold quantileVal
  rw [sortNonNan_noInf h]
  by_cases hd : dropNan xs = []
  · simp [hd]
  · have hs : (dropNan xs).insertionSort (· ≤ ·) ≠ [] := fun hc => hd (insertionSort_eq_nil.mp hc)
    rw [if_neg hd]
    generalize (dropNan xs).insertionSort (· ≤ ·) = s at hs ⊢
    simp only [List.map_eq_nil_iff, hs, if_false, List.length_map]
    have hl : 0 < s.length := List.length_pos_iff.mpr hs
    obtain ⟨a1, a2, a3⟩ := quantile_index hs h0 h1
    have e : ∀ k, k < s.length → (s.map FV.fin).getD k .nan = .fin (s.getD k 0) := by
      intro k hk
      simp [List.getD_eq_getElem?_getD, hk]
    rw [e _ (by omega), e _ (by omega)]
    rfl

theorem medianVal_noInf {xs : List (FV K)} (h : NoInf xs) : medianVal xs = quantileVal xs (1 / 2) := by
  rw [quantileVal_noInf h (by positivity) (by norm_num)]
  unfold medianVal
  rw [sortNonNan_noInf h]
  by_cases hd : dropNan xs = []
  · simp [hd]
  · have hs : (dropNan xs).insertionSort (· ≤ ·) ≠ [] := fun hc => hd (insertionSort_eq_nil.mp hc)
    rw [if_neg hd]
    generalize (dropNan xs).insertionSort (· ≤ ·) = s at hs ⊢
    have hl : 0 < s.length := List.length_pos_iff.mpr hs
    simp only [List.length_map, if_neg (show ¬ s.length = 0 by omega)]
    have e : ∀ k, k < s.length → (s.map FV.fin).getD k .nan = .fin (s.getD k 0) := by
      intro k hk
      simp [List.getD_eq_getElem?_getD, hk]
    unfold quantileSorted
    split
    · rename_i ho
      obtain ⟨m, hm⟩ : ∃ m, s.length = 2 * m + 1 := ⟨s.length / 2, by omega⟩
      have hh : ((s.length : K) - 1) * (1 / 2) = ((m : ℕ) : K) := by rw [hm]; push_cast; ring
      rw [hh, show s.length / 2 = m by omega, e _ (by omega)]
      simp
    · rename_i ho
      obtain ⟨m, hm⟩ : ∃ m, s.length = 2 * (m + 1) := ⟨s.length / 2 - 1, by omega⟩
      have hh : ((s.length : K) - 1) * (1 / 2) = ((m : ℕ) : K) + 1 / 2 := by rw [hm]; push_cast; ring
      have hf : ⌊((m : ℕ) : K) + 1 / 2⌋ = (m : ℤ) := by
        rw [Int.floor_eq_iff]
        constructor <;> push_cast <;> linarith [show (0:K) < 1 / 2 by norm_num, show (1 / 2 : K) < 1 by norm_num]
      rw [hh]
      simp only [hf]
      rw [show s.length / 2 = m + 1 by omega, e _ (by omega), e _ (by omega), FV.fin_add_fin, FV.fin_div_fin _ _ two_ne_zero]
      simp only [Int.toNat_natCast, Nat.add_sub_cancel]
      rw [show min (m + 1) (s.length - 1) = m + 1 by omega]
      congr 1
      ring

end Pyirf.Np
