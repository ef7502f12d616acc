import Verif.Np.FV
import Mathlib.Algebra.BigOperators.Group.List.Basic
import Mathlib.Data.List.Basic

/-!
# numpy contracts: searchsorted, digitize, histogram, histogramdd

Arrays are lists.  These are models of numpy, not of /repo; they are part of the trusted base.
-/

set_option linter.unusedSectionVars false
set_option linter.unusedSimpArgs false

namespace Pyirf

variable {K : Type*}

/-- Increasing (weakly), NaN-free edge array.  This is the specification of "increasing bin edges". -/
def Increasing [LinearOrder K] (edges : List (FV K)) : Prop :=
  (∀ e ∈ edges, e ≠ FV.nan) ∧ edges.Pairwise (fun a b => FV.le a b = true)

/-- The same edges in decreasing order. -/
def Decreasing [LinearOrder K] (edges : List (FV K)) : Prop :=
  (∀ e ∈ edges, e ≠ FV.nan) ∧ edges.Pairwise (fun a b => FV.le b a = true)

namespace Np
variable [LinearOrder K]

/-- `np.searchsorted(a, x, side="right")` of a sorted array: the number of elements that are not
above `x` in numpy's sort order (NaN last). -/
def searchsortedRight (a : List (FV K)) (x : FV K) : ℕ := a.countP (fun e => !FV.sortLt x e)

/-- Second loop of numpy's `check_array_monotonic` for the increasing case: no later descent. -/
def noDescent : List (FV K) → Bool
  | a :: b :: l => !FV.gt a b && noDescent (b :: l)
  | _ => true

/-- Second loop of numpy's `check_array_monotonic` for the decreasing case: no later ascent. -/
def noAscent : List (FV K) → Bool
  | a :: b :: l => !FV.lt a b && noAscent (b :: l)
  | _ => true

/-- numpy's `_monotonicity` (C function `check_array_monotonic`): 1 increasing, -1 decreasing,
0 neither. Leading repetitions are skipped, then the first step decides the direction. -/
def monotonicity : List (FV K) → ℤ
  | [] => 1
  | [_] => 1
  | a :: b :: l =>
    if FV.beq b a then monotonicity (b :: l)
    else if FV.lt a b then (if noDescent (b :: l) then 1 else 0)
    else (if noAscent (b :: l) then -1 else 0)

/-- `np.digitize(x, bins)` (`right=False`) for one value. -/
def digitize (bins : List (FV K)) (x : FV K) : Except Err ℕ :=
  if monotonicity bins = 0 then .error .valueError
  else if monotonicity bins = -1 then .ok (bins.length - searchsortedRight bins.reverse x)
  else .ok (searchsortedRight bins x)

end Np

namespace Np
variable [Field K] [LinearOrder K]

/-- `np.diff` -/
def diff (l : List K) : List K := List.zipWith (fun b a => b - a) l.tail l

/-- Sum of the weights of the entries whose value satisfies `p`. -/
def wsum (p : FV K → Bool) (xs : List (FV K × K)) : K := ((xs.filter (fun v => p v.1)).map Prod.snd).sum

/-- numpy's `_search_sorted_inclusive` applied to the cumulative weights: weight strictly below each
edge, for the last edge weight below or equal. -/
def histCum (edges : List (FV K)) (xs : List (FV K × K)) : List K :=
  edges.dropLast.map (fun e => wsum (fun x => FV.sortLt x e) xs)
    ++ (edges.getLast?.toList).map (fun e => wsum (fun x => !FV.sortLt e x) xs)

/-- True if some edge is greater than its successor (`np.any(bin_edges[:-1] > bin_edges[1:])`). -/
def anyDescent (edges : List (FV K)) : Bool := (List.zipWith FV.gt edges edges.tail).any id

/-- `np.histogram(x, bins, weights=w)` for explicit bin edges (weights 1: counts). -/
def histogram (edges : List (FV K)) (xs : List (FV K × K)) : Except Err (List K) :=
  if anyDescent edges then .error .valueError else .ok (diff (histCum edges xs))

/-- The per-axis bin number of `np.histogramdd`: `searchsorted(edges, x, side="right")`, reduced by
one when `x` equals the last edge, minus one; `none` when outside. -/
def histddBin (edges : List (FV K)) (x : FV K) : Option ℕ :=
  let c := searchsortedRight edges x
  let c' := if (edges.getLast?.map (fun e => FV.beq x e)) = some true then c - 1 else c
  if 1 ≤ c' ∧ c' + 1 ≤ edges.length then some (c' - 1) else none

end Np

/-- Specification of the half-open bin `[edges[i], edges[i+1])`. -/
def InBin [LinearOrder K] (edges : List (FV K)) (i : ℕ) (x : FV K) : Prop :=
  ∃ h : i + 1 < edges.length, FV.le edges[i] x = true ∧ FV.lt x edges[i+1] = true

/-- Specification of histogram bin `i`: half-open, except that the last bin contains its upper edge. -/
def InHistBin [LinearOrder K] (edges : List (FV K)) (i : ℕ) (x : FV K) : Prop :=
  ∃ h : i + 1 < edges.length, FV.le edges[i] x = true ∧
    (FV.lt x edges[i+1] = true ∨ (i + 2 = edges.length ∧ FV.le x edges[i+1] = true))

/-- Specification of the closed range of an edge array. -/
def InRange [LinearOrder K] (edges : List (FV K)) (x : FV K) : Prop :=
  ∃ h : 0 < edges.length, FV.le edges[0] x = true ∧ FV.le x (edges[edges.length - 1]'(by omega)) = true

section lemmas
variable [LinearOrder K]

instance (edges : List (FV K)) (i : ℕ) (x : FV K) : Decidable (InBin edges i x) := by
  unfold InBin; infer_instance
instance (edges : List (FV K)) (i : ℕ) (x : FV K) : Decidable (InHistBin edges i x) := by
  unfold InHistBin; infer_instance
instance (edges : List (FV K)) (x : FV K) : Decidable (InRange edges x) := by
  unfold InRange; infer_instance

theorem Increasing.tail {e : FV K} {es : List (FV K)} (h : Increasing (e :: es)) : Increasing es :=
  ⟨fun a ha => h.1 a (List.mem_cons_of_mem _ ha), (List.pairwise_cons.mp h.2).2⟩

theorem Increasing.getElem_le {es : List (FV K)} (h : Increasing es) {i j : ℕ} (hij : i ≤ j)
    (hj : j < es.length) : FV.le es[i] es[j] = true := by
  rcases Nat.eq_or_lt_of_le hij with rfl | hlt
  · exact FV.le_refl' (h.1 _ (List.getElem_mem _))
  · exact List.pairwise_iff_getElem.mp h.2 i j (by omega) hj hlt

theorem Increasing.getElem_ne_nan {es : List (FV K)} (h : Increasing es) {i : ℕ} (hj : i < es.length) :
    es[i] ≠ FV.nan := h.1 _ (List.getElem_mem _)

theorem searchsortedRight_le (es : List (FV K)) (x : FV K) : Np.searchsortedRight es x ≤ es.length :=
  List.countP_le_length

theorem lt_searchsortedRight {es : List (FV K)} (h : Increasing es) (x : FV K) (i : ℕ)
    (hi : i < es.length) :
    i < Np.searchsortedRight es x ↔ (x = FV.nan ∨ FV.le es[i] x = true) := by
  induction es generalizing i with
  | nil => simp at hi
  | cons e es ih =>
    have he : e ≠ FV.nan := h.1 e (by simp)
    unfold Np.searchsortedRight at ih ⊢
    rw [List.countP_cons]
    by_cases hx : FV.sortLt x e = false
    · have hx' := (FV.sortLt_eq_false_iff he).mp hx
      cases i with
      | zero => simp [hx, hx']
      | succ i =>
        have := ih h.tail i (by simpa using hi)
        simp [hx, this]
    · have hx1 : FV.sortLt x e = true := by simpa using hx
      have hx2 : ¬ (x = FV.nan ∨ FV.le e x = true) := fun hh => hx ((FV.sortLt_eq_false_iff he).mpr hh)
      have hz : es.countP (fun e => !FV.sortLt x e) = 0 := by
        rw [List.countP_eq_zero]
        intro a ha
        have hea : FV.le e a = true := (List.pairwise_cons.mp h.2).1 a ha
        intro hc
        have hc' : FV.sortLt x a = false := by simpa using hc
        rcases (FV.sortLt_eq_false_iff (h.1 a (List.mem_cons_of_mem _ ha))).mp hc' with rfl | hc'
        · exact hx2 (Or.inl rfl)
        · exact hx2 (Or.inr (FV.le_trans' hea hc'))
      rw [hz]
      simp only [hx1, Bool.not_true, Bool.false_eq_true, if_false, Nat.add_zero, Nat.not_lt_zero, false_iff]
      rintro (rfl | hle)
      · exact hx2 (Or.inl rfl)
      · have := h.getElem_le (i := 0) (j := i) (by omega) hi
        exact hx2 (Or.inr (FV.le_trans' (by simpa using this) hle))

theorem searchsortedRight_nan (es : List (FV K)) :
    Np.searchsortedRight es FV.nan = es.length := by
  unfold Np.searchsortedRight
  rw [List.countP_eq_length]
  intro a _
  simp [FV.sortLt]

theorem Increasing.noDescent {es : List (FV K)} (h : Increasing es) : Np.noDescent es = true := by
  induction es with
  | nil => rfl
  | cons a l ih =>
    cases l with
    | nil => rfl
    | cons b l =>
      have hab : FV.le a b = true := (List.pairwise_cons.mp h.2).1 b (by simp)
      simp [Np.noDescent, ih h.tail, FV.gt, FV.not_lt_of_le hab]

theorem Increasing.monotonicity {es : List (FV K)} (h : Increasing es) : Np.monotonicity es = 1 := by
  induction es with
  | nil => rfl
  | cons a l ih =>
    cases l with
    | nil => rfl
    | cons b l =>
      have hab : FV.le a b = true := (List.pairwise_cons.mp h.2).1 b (by simp)
      unfold Np.monotonicity
      split
      · exact ih h.tail
      · rename_i hne
        have hlt : FV.lt a b = true := by
          rcases FV.le_or_lt' (h.1 b (by simp)) (h.1 a (by simp)) with h1 | h1
          · simp [FV.beq, hab, h1] at hne
          · exact h1
        simp [hlt, h.tail.noDescent]

theorem digitize_increasing {es : List (FV K)} (h : Increasing es) (x : FV K) :
    Np.digitize es x = .ok (Np.searchsortedRight es x) := by
  unfold Np.digitize
  rw [h.monotonicity]
  simp

theorem noDescent_increasing {es : List (FV K)} (hn : ∀ e ∈ es, e ≠ FV.nan)
    (h : Np.noDescent es = true) : Increasing es := by
  refine ⟨hn, ?_⟩
  have hch : List.IsChain (fun a b => FV.le a b = true) es := by
    induction es with
    | nil => simp
    | cons a l ih =>
      cases l with
      | nil => simp
      | cons b l =>
        simp only [Np.noDescent, FV.gt, Bool.and_eq_true, Bool.not_eq_true'] at h
        refine List.isChain_cons_cons.mpr ⟨?_, ih (fun e he => hn e (List.mem_cons_of_mem _ he)) h.2⟩
        rcases FV.le_or_lt' (hn a (by simp)) (hn b (by simp)) with h1 | h1
        · exact h1
        · simp [h1] at h
  have : IsTrans (FV K) (fun a b => FV.le a b = true) := ⟨fun _ _ _ => FV.le_trans'⟩
  exact List.isChain_iff_pairwise.mp hch

theorem noAscent_decreasing {es : List (FV K)} (hn : ∀ e ∈ es, e ≠ FV.nan)
    (h : Np.noAscent es = true) : Decreasing es := by
  refine ⟨hn, ?_⟩
  have hch : List.IsChain (fun a b => FV.le b a = true) es := by
    induction es with
    | nil => simp
    | cons a l ih =>
      cases l with
      | nil => simp
      | cons b l =>
        simp only [Np.noAscent, Bool.and_eq_true, Bool.not_eq_true'] at h
        refine List.isChain_cons_cons.mpr ⟨?_, ih (fun e he => hn e (List.mem_cons_of_mem _ he)) h.2⟩
        rcases FV.le_or_lt' (hn b (by simp)) (hn a (by simp)) with h1 | h1
        · exact h1
        · simp [h1] at h
  have : IsTrans (FV K) (fun a b => FV.le b a = true) := ⟨fun _ _ _ h1 h2 => FV.le_trans' h2 h1⟩
  exact List.isChain_iff_pairwise.mp hch

/-- numpy accepts NaN-free edges only when they are increasing or decreasing. -/
theorem monotonicity_ne_zero {es : List (FV K)} (hn : ∀ e ∈ es, e ≠ FV.nan)
    (h : Np.monotonicity es ≠ 0) : Increasing es ∨ Decreasing es := by
  induction es with
  | nil => left; exact ⟨by simp, List.Pairwise.nil⟩
  | cons a l ih =>
    cases l with
    | nil => left; exact ⟨hn, List.pairwise_singleton _ _⟩
    | cons b l =>
      have hnl : ∀ e ∈ b :: l, e ≠ FV.nan := fun e he => hn e (List.mem_cons_of_mem _ he)
      have hb := hn b (by simp)
      have ha := hn a (by simp)
      unfold Np.monotonicity at h
      split at h
      · rename_i heq
        obtain ⟨rfl, -⟩ := (FV.beq_iff b a).mp heq
        rcases ih hnl h with h1 | h1
        · left
          refine ⟨hn, List.pairwise_cons.mpr ⟨?_, h1.2⟩⟩
          intro c hc
          rcases List.mem_cons.mp hc with rfl | hc
          · exact FV.le_refl' hb
          · exact (List.pairwise_cons.mp h1.2).1 c hc
        · right
          refine ⟨hn, List.pairwise_cons.mpr ⟨?_, h1.2⟩⟩
          intro c hc
          rcases List.mem_cons.mp hc with rfl | hc
          · exact FV.le_refl' hb
          · exact (List.pairwise_cons.mp h1.2).1 c hc
      · split at h
        · rename_i hlt
          split at h
          · rename_i hd
            have h1 := noDescent_increasing hnl hd
            left
            refine ⟨hn, List.pairwise_cons.mpr ⟨?_, h1.2⟩⟩
            intro c hc
            rcases List.mem_cons.mp hc with rfl | hc
            · exact FV.le_of_lt' hlt
            · exact FV.le_trans' (FV.le_of_lt' hlt) ((List.pairwise_cons.mp h1.2).1 c hc)
          · simp at h
        · rename_i hlt
          split at h
          · rename_i hd
            have h1 := noAscent_decreasing hnl hd
            have hba : FV.le b a = true := by
              rcases FV.le_or_lt' hb ha with h2 | h2
              · exact h2
              · exact absurd h2 hlt
            right
            refine ⟨hn, List.pairwise_cons.mpr ⟨?_, h1.2⟩⟩
            intro c hc
            rcases List.mem_cons.mp hc with rfl | hc
            · exact hba
            · exact FV.le_trans' ((List.pairwise_cons.mp h1.2).1 c hc) hba
          · simp at h

/-- Two histogram bins of increasing edges never share a value. -/
theorem inHistBin_unique {es : List (FV K)} (h : Increasing es) {i j : ℕ} {x : FV K}
    (hi : InHistBin es i x) (hj : InHistBin es j x) : i = j := by
  by_contra hne
  wlog hij : i < j generalizing i j
  · exact this hj hi (Ne.symm hne) (by omega)
  obtain ⟨h1, h2, h3⟩ := hi
  obtain ⟨h4, h5, h6⟩ := hj
  rcases h3 with h3 | ⟨h3, -⟩
  · have := FV.lt_of_lt_of_le' h3 (h.getElem_le (i := i+1) (j := j) (by omega) (by omega))
    rw [FV.not_lt_of_le h5] at this
    exact Bool.false_ne_true this
  · omega

theorem InBin.inHistBin {es : List (FV K)} {i : ℕ} {x : FV K} (h : InBin es i x) : InHistBin es i x := by
  obtain ⟨h1, h2, h3⟩ := h
  exact ⟨h1, h2, Or.inl h3⟩

theorem InHistBin.inRange {es : List (FV K)} (h : Increasing es) {i : ℕ} {x : FV K}
    (hi : InHistBin es i x) : InRange es x := by
  obtain ⟨h1, h2, h3⟩ := hi
  refine ⟨by omega, FV.le_trans' (h.getElem_le (Nat.zero_le i) (by omega)) h2, ?_⟩
  have h4 : FV.le x es[i+1] = true := by
    rcases h3 with h3 | ⟨-, h3⟩
    · exact FV.le_of_lt' h3
    · exact h3
  exact FV.le_trans' h4 (h.getElem_le (by omega) (by omega))

/-- Every value in the closed range of at least two increasing edges lies in some histogram bin. -/
theorem exists_inHistBin {es : List (FV K)} (h : Increasing es) (hl : 2 ≤ es.length) {x : FV K}
    (hx : InRange es x) : ∃ i, InHistBin es i x := by
  obtain ⟨h0, h1, h2⟩ := hx
  have hxn : x ≠ FV.nan := (FV.ne_nan_of_le h1).2
  set c := Np.searchsortedRight es x with hc
  have hc0 : 0 < c := (lt_searchsortedRight h x 0 h0).mpr (Or.inr h1)
  have hcl : c ≤ es.length := searchsortedRight_le es x
  rcases Nat.lt_or_ge c es.length with hlt | hge
  · refine ⟨c - 1, by omega, ?_, Or.inl ?_⟩
    · rcases (lt_searchsortedRight h x (c-1) (by omega)).mp (by omega) with h3 | h3
      · exact absurd h3 hxn
      · exact h3
    · have : ¬ (x = FV.nan ∨ FV.le es[c] x = true) := fun hh =>
        absurd ((lt_searchsortedRight h x c hlt).mpr hh) (by omega)
      have hn := h.getElem_ne_nan hlt
      have e : es[c - 1 + 1]'(by omega) = es[c] := by congr 1; omega
      rw [e]
      rcases FV.le_or_lt' hn hxn with h3 | h3
      · exact absurd (Or.inr h3) this
      · exact h3
  · refine ⟨es.length - 2, by omega, ?_, Or.inr ⟨by omega, ?_⟩⟩
    · rcases (lt_searchsortedRight h x (es.length - 2) (by omega)).mp (by omega) with h3 | h3
      · exact absurd h3 hxn
      · exact h3
    · have e : es[es.length - 2 + 1]'(by omega) = es[es.length - 1]'(by omega) := by congr 1; omega
      rw [e]; exact h2
end lemmas

section hist
variable [Field K] [LinearOrder K]

theorem wsum_nil (p : FV K → Bool) : Np.wsum (K := K) p [] = 0 := by simp [Np.wsum]

theorem wsum_cons (p : FV K → Bool) (v : FV K × K) (xs : List (FV K × K)) :
    Np.wsum p (v :: xs) = (if p v.1 then v.2 else 0) + Np.wsum p xs := by
  unfold Np.wsum
  by_cases h : p v.1 <;> simp [h]

theorem wsum_append (p : FV K → Bool) (xs ys : List (FV K × K)) :
    Np.wsum p (xs ++ ys) = Np.wsum p xs + Np.wsum p ys := by
  simp [Np.wsum]

theorem wsum_perm (p : FV K → Bool) {xs ys : List (FV K × K)} (h : xs.Perm ys) :
    Np.wsum p xs = Np.wsum p ys := by
  unfold Np.wsum
  exact ((h.filter _).map _).sum_eq

theorem wsum_congr {p q : FV K → Bool} (h : ∀ x, p x = q x) (xs : List (FV K × K)) :
    Np.wsum p xs = Np.wsum q xs := by
  have : p = q := funext h
  rw [this]

theorem wsum_sub {p q : FV K → Bool} (h : ∀ x, p x = true → q x = true) (xs : List (FV K × K)) :
    Np.wsum q xs - Np.wsum p xs = Np.wsum (fun x => q x && !p x) xs := by
  induction xs with
  | nil => simp [wsum_nil]
  | cons v xs ih =>
    rw [wsum_cons, wsum_cons, wsum_cons, ← ih]
    by_cases hp : p v.1 = true
    · simp [hp, h _ hp]
    · by_cases hq : q v.1 = true <;> (simp [hp, hq]; try ring)

theorem anyDescent_eq_false {es : List (FV K)} (h : Increasing es) : Np.anyDescent es = false := by
  unfold Np.anyDescent
  rw [List.any_eq_false]
  intro b hb
  obtain ⟨i, hi, rfl⟩ := List.getElem_of_mem hb
  simp only [List.length_zipWith, List.length_tail] at hi
  have : FV.le es[i] (es[i+1]'(by omega)) = true := h.getElem_le (by omega) (by omega)
  simp [List.getElem_zipWith, FV.gt, FV.not_lt_of_le this]

theorem length_histCum (es : List (FV K)) (xs : List (FV K × K)) :
    (Np.histCum es xs).length = es.length := by
  unfold Np.histCum
  rcases List.eq_nil_or_concat es with rfl | ⟨l, a, rfl⟩
  · simp
  · simp

theorem getElem_histCum (es : List (FV K)) (xs : List (FV K × K)) (i : ℕ) (h : i < es.length) :
    (Np.histCum es xs)[i]'(by rw [length_histCum]; exact h)
      = if i + 1 = es.length then Np.wsum (fun x => !FV.sortLt es[i] x) xs
        else Np.wsum (fun x => FV.sortLt x es[i]) xs := by
  rcases List.eq_nil_or_concat es with rfl | ⟨l, a, rfl⟩
  · simp at h
  · simp only [List.concat_eq_append, List.length_append, List.length_singleton] at h
    unfold Np.histCum
    rcases Nat.lt_or_ge i l.length with hlt | hge
    · have : ¬ (i + 1 = (l.concat a).length) := by simp; omega
      rw [if_neg this]
      simp [List.getElem_append, hlt]
    · have hi : i = l.length := by omega
      subst hi
      simp

theorem sum_diff (a : K) (l : List K) :
    (Np.diff (a :: l)).sum = (a :: l).getLast (by simp) - a := by
  induction l generalizing a with
  | nil => simp [Np.diff]
  | cons b l ih =>
    have := ih b
    simp only [Np.diff, List.tail_cons, List.zipWith_cons_cons, List.sum_cons] at this ⊢
    rw [this]
    simp [List.getLast_cons]

theorem sortLt_of_ne_nan {x e : FV K} (he : e ≠ FV.nan) : FV.sortLt x e = FV.lt x e := by
  cases x <;> cases e <;> simp_all [FV.sortLt, FV.lt]

theorem sortLt_not {x e : FV K} (he : e ≠ FV.nan) : (!FV.sortLt e x) = FV.le x e := by
  cases x <;> cases e <;> simp_all [FV.sortLt, FV.lt, FV.le]
  rename_i a b
  by_cases h : a ≤ b
  · simp [h, not_lt.mpr h]
  · simp [h, not_le.mp h]

/-- The weight below edge `i` (below or equal for the last edge), for increasing edges. -/
theorem getElem_histCum_inc {es : List (FV K)} (h : Increasing es) (xs : List (FV K × K)) (i : ℕ)
    (hi : i < es.length) :
    (Np.histCum es xs)[i]'(by rw [length_histCum]; exact hi)
      = if i + 1 = es.length then Np.wsum (fun x => FV.le x es[i]) xs
        else Np.wsum (fun x => FV.lt x es[i]) xs := by
  rw [getElem_histCum es xs i hi]
  have hn := h.getElem_ne_nan hi
  split
  · exact wsum_congr (fun x => sortLt_not hn) xs
  · exact wsum_congr (fun x => sortLt_of_ne_nan hn) xs

/-- `np.histogram` on increasing edges: content `i` is the weight of the entries in histogram bin `i`. -/
theorem histogram_increasing {es : List (FV K)} (h : Increasing es) (xs : List (FV K × K)) :
    Np.histogram es xs =
      .ok ((List.range (es.length - 1)).map (fun i => Np.wsum (fun x => decide (InHistBin es i x)) xs)) := by
  unfold Np.histogram
  rw [anyDescent_eq_false h]
  simp only [Bool.false_eq_true, if_false]
  congr 1
  apply List.ext_getElem
  · simp [Np.diff, length_histCum]
  · intro i h1 h2
    have hi : i + 1 < es.length := by simp at h2; omega
    simp only [Np.diff, List.getElem_zipWith, List.getElem_tail, List.getElem_map, List.getElem_range]
    rw [getElem_histCum_inc h xs (i+1) hi, getElem_histCum_inc h xs i (by omega)]
    rw [if_neg (show ¬ i + 1 = es.length by omega)]
    have hle : FV.le es[i] es[i+1] = true := h.getElem_le (by omega) hi
    have hni := h.getElem_ne_nan (show i < es.length by omega)
    split
    · rename_i hlast
      rw [wsum_sub (fun x hx => FV.le_of_lt' (FV.lt_of_lt_of_le' hx hle))]
      apply wsum_congr
      intro x
      rw [Bool.eq_iff_iff]
      simp only [Bool.and_eq_true, Bool.not_eq_true', decide_eq_true_eq]
      unfold InHistBin
      constructor
      · rintro ⟨ha, hb⟩
        refine ⟨hi, ?_, Or.inr ⟨by omega, ha⟩⟩
        rcases FV.le_or_lt' hni (FV.ne_nan_of_le ha).1 with hc | hc
        · exact hc
        · rw [hb] at hc; exact absurd hc (by simp)
      · rintro ⟨_, ha, hb⟩
        refine ⟨?_, FV.not_lt_of_le ha⟩
        rcases hb with hb | ⟨-, hb⟩
        · exact FV.le_of_lt' hb
        · exact hb
    · rename_i hlast
      rw [wsum_sub (fun x hx => FV.lt_of_lt_of_le' hx hle)]
      apply wsum_congr
      intro x
      rw [Bool.eq_iff_iff]
      simp only [Bool.and_eq_true, Bool.not_eq_true', decide_eq_true_eq]
      unfold InHistBin
      constructor
      · rintro ⟨ha, hb⟩
        refine ⟨hi, ?_, Or.inl ha⟩
        rcases FV.le_or_lt' hni (FV.ne_nan_of_lt ha).1 with hc | hc
        · exact hc
        · rw [hb] at hc; exact absurd hc (by simp)
      · rintro ⟨_, ha, hb⟩
        refine ⟨?_, FV.not_lt_of_le ha⟩
        rcases hb with hb | ⟨hb, -⟩
        · exact hb
        · omega

/-- The contents of all histogram bins add up to the weight in the closed range of the edges. -/
theorem sum_hist {es : List (FV K)} (h : Increasing es) (hl : 2 ≤ es.length) (xs : List (FV K × K)) :
    ((List.range (es.length - 1)).map (fun i => Np.wsum (fun x => decide (InHistBin es i x)) xs)).sum
      = Np.wsum (fun x => decide (InRange es x)) xs := by
  have hh := histogram_increasing h xs
  unfold Np.histogram at hh
  rw [anyDescent_eq_false h] at hh
  simp only [Bool.false_eq_true, if_false, Except.ok.injEq] at hh
  rw [← hh]
  have hlen := length_histCum es xs
  obtain ⟨a, l, hal⟩ : ∃ a l, Np.histCum es xs = a :: l := by
    cases hc : Np.histCum es xs with
    | nil => rw [hc] at hlen; simp at hlen; omega
    | cons a l => exact ⟨a, l, rfl⟩
  rw [hal, sum_diff]
  have hlast : (a :: l).getLast (by simp) = Np.wsum (fun x => FV.le x (es[es.length - 1]'(by omega))) xs := by
    rw [List.getLast_eq_getElem]
    have h1 := getElem_histCum_inc h xs (es.length - 1) (by omega)
    rw [if_pos (by omega)] at h1
    rw [← h1]
    have : (a :: l).length = es.length := by rw [← hal, hlen]
    simp only [hal, this]
  have hfirst : a = Np.wsum (fun x => FV.lt x es[0]) xs := by
    have h1 := getElem_histCum_inc h xs 0 (by omega)
    rw [if_neg (by omega)] at h1
    rw [← h1]
    simp only [hal, List.getElem_cons_zero]
  rw [hlast, hfirst]
  have hle : FV.le es[0] (es[es.length - 1]'(by omega)) = true := h.getElem_le (by omega) (by omega)
  rw [wsum_sub (fun x hx => FV.le_of_lt' (FV.lt_of_lt_of_le' hx hle))]
  apply wsum_congr
  intro x
  rw [Bool.eq_iff_iff]
  simp only [Bool.and_eq_true, Bool.not_eq_true', decide_eq_true_eq]
  unfold InRange
  constructor
  · rintro ⟨ha, hb⟩
    refine ⟨by omega, ?_, ha⟩
    rcases FV.le_or_lt' (h.getElem_ne_nan (show 0 < es.length by omega)) (FV.ne_nan_of_le ha).1 with hc | hc
    · exact hc
    · rw [hb] at hc; exact absurd hc (by simp)
  · rintro ⟨_, ha, hb⟩
    exact ⟨hb, FV.not_lt_of_le ha⟩

/-- The bin number `np.histogramdd` uses is the histogram bin of the specification. -/
theorem histddBin_eq_some {es : List (FV K)} (h : Increasing es) (x : FV K) (i : ℕ) :
    Np.histddBin es x = some i ↔ InHistBin es i x := by
  unfold Np.histddBin
  set c := Np.searchsortedRight es x with hc
  have hcl : c ≤ es.length := searchsortedRight_le es x
  rcases List.eq_nil_or_concat es with hnil | ⟨l, a, hla⟩
  · subst hnil
    simp [InHistBin]
  have hpos : 0 < es.length := by rw [hla]; simp
  have hlast : es.getLast? = some (es[es.length-1]'(by omega)) := by
    rw [List.getLast?_eq_getElem?]; simp [hpos]
  rw [hlast]
  simp only [Option.map_some, Option.some.injEq]
  set e := es[es.length-1]'(by omega) with he
  by_cases hxe : FV.beq x e = true
  · obtain ⟨hxe', hxn⟩ := (FV.beq_iff x e).mp hxe
    have hcc : c = es.length := by
      have := (lt_searchsortedRight h x (es.length - 1) (by omega)).mpr
        (Or.inr (by rw [hxe']; exact FV.le_refl' (h.getElem_ne_nan (by omega))))
      omega
    simp only [hxe, if_true]
    rw [hcc]
    have key : ∀ hl : 2 ≤ es.length, InHistBin es (es.length - 2) x := by
      intro hl
      refine ⟨by omega, ?_, Or.inr ⟨by omega, ?_⟩⟩
      · rw [hxe']; exact h.getElem_le (by omega) (by omega)
      · have e' : es[es.length - 2 + 1]'(by omega) = es[es.length - 1]'(by omega) := by congr 1; omega
        rw [e', hxe']; exact FV.le_refl' (h.getElem_ne_nan (by omega))
    constructor
    · intro hs
      split at hs
      · rename_i hcond
        have : i = es.length - 2 := by simp at hs; omega
        rw [this]; exact key (by omega)
      · simp at hs
    · intro hi
      obtain ⟨h1, -⟩ := id hi
      have := inHistBin_unique h hi (key (by omega))
      rw [if_pos (by omega)]
      simp; omega
  · simp only [hxe, Bool.false_eq_true, if_false]
    constructor
    · intro hs
      split at hs
      · rename_i hcond
        have hi : i = c - 1 := by simpa using hs.symm
        have hlt : c < es.length := by omega
        have h2 : ¬ (x = FV.nan ∨ FV.le es[c] x = true) := fun hh =>
          absurd ((lt_searchsortedRight h x c hlt).mpr hh) (by omega)
        have h3 := (lt_searchsortedRight h x (c-1) (by omega)).mp (by omega)
        have hxn : x ≠ FV.nan := fun hh => h2 (Or.inl hh)
        refine ⟨by omega, ?_, Or.inl ?_⟩
        · subst hi
          exact h3.resolve_left hxn
        · have e' : es[i+1]'(by omega) = es[c] := by congr 1; omega
          rw [e']
          rcases FV.le_or_lt' (h.getElem_ne_nan hlt) hxn with h4 | h4
          · exact absurd (Or.inr h4) h2
          · exact h4
      · simp at hs
    · rintro ⟨h1, h2, h3⟩
      have hxn : x ≠ FV.nan := (FV.ne_nan_of_le h2).2
      have hc1 : i < c := (lt_searchsortedRight h x i (by omega)).mpr (Or.inr h2)
      have h4 : FV.lt x es[i+1] = true := by
        rcases h3 with h3 | ⟨h3, h5⟩
        · exact h3
        · have e' : es[i+1]'(by omega) = e := by rw [he]; congr 1; omega
          rw [e'] at h5 ⊢
          rcases FV.le_or_lt' (h.getElem_ne_nan (show es.length - 1 < es.length by omega)) hxn with h6 | h6
          · exfalso; apply hxe; simp only [FV.beq, Bool.and_eq_true]; exact ⟨h5, h6⟩
          · exact h6
      have hc2 : ¬ (i + 1 < c) := fun hh => by
        rcases (lt_searchsortedRight h x (i+1) h1).mp hh with h5 | h5
        · exact hxn h5
        · rw [FV.not_le_of_lt h4] at h5; exact absurd h5 (by simp)
      rw [if_pos (by omega)]
      simp; omega

end hist
end Pyirf
