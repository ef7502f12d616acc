import Verif.Np.Bins
import Mathlib.Algebra.BigOperators.Fin
import Mathlib.Algebra.BigOperators.Group.Finset.Basic
import Mathlib.Algebra.Order.BigOperators.Group.Finset
import Mathlib.Algebra.Order.BigOperators.Group.List

/-!
# numpy contract: `np.histogramdd` / `np.histogram2d` with explicit edges, and broadcasting

Edges of `n` bins are functions on `Fin (n + 1)`, histograms are functions on the bins.
-/
set_option linter.unusedSectionVars false

namespace Pyirf

variable {K : Type*} [Field K] [LinearOrder K]

/-- Specification: edges in increasing order, no NaN. -/
def IncEdges {n : ℕ} (e : Fin (n + 1) → FV K) : Prop := (∀ i, e i ≠ FV.nan) ∧ ∀ i j, i ≤ j → FV.le (e i) (e j) = true

/-- Specification: value in bin `i`, half-open except that the last bin contains its upper edge. -/
def InBinOf {n : ℕ} (e : Fin (n + 1) → FV K) (i : Fin n) (x : FV K) : Prop :=
  FV.le (e i.castSucc) x = true ∧ (FV.lt x (e i.succ) = true ∨ ((i : ℕ) + 1 = n ∧ FV.le x (e i.succ) = true))

/-- Specification: value between the first and the last edge. -/
def InRangeOf {n : ℕ} (e : Fin (n + 1) → FV K) (x : FV K) : Prop :=
  FV.le (e 0) x = true ∧ FV.le x (e (Fin.last n)) = true

instance {n : ℕ} (e : Fin (n + 1) → FV K) (i : Fin n) (x : FV K) : Decidable (InBinOf e i x) := by unfold InBinOf; infer_instance
instance {n : ℕ} (e : Fin (n + 1) → FV K) (x : FV K) : Decidable (InRangeOf e x) := by unfold InRangeOf; infer_instance

namespace Np

/-- The test of `np.histogramdd` that edges increase: `np.any(edges[:-1] > edges[1:])`. -/
def badEdges {n : ℕ} (e : Fin (n + 1) → FV K) : Prop := ∃ i : Fin n, FV.gt (e i.castSucc) (e i.succ) = true

instance {n : ℕ} (e : Fin (n + 1) → FV K) : Decidable (badEdges e) := by unfold badEdges; infer_instance

/-- `np.histogram2d(x, y, bins=[e1, e2], weights=w)`. -/
def histogram2d {n m : ℕ} (e1 : Fin (n + 1) → FV K) (e2 : Fin (m + 1) → FV K) (rows : List (FV K × FV K × K)) :
    Except Err (Fin n → Fin m → K) :=
  if badEdges e1 ∨ badEdges e2 then .error .valueError
  else .ok fun i j => ((rows.filter fun r =>
    decide (histddBin (List.ofFn e1) r.1 = some i.val) && decide (histddBin (List.ofFn e2) r.2.1 = some j.val)).map (fun r => r.2.2)).sum

/-- `np.histogramdd((x, y, z), bins=[e1, e2, e3], weights=w)`. -/
def histogram3d {n m k : ℕ} (e1 : Fin (n + 1) → FV K) (e2 : Fin (m + 1) → FV K) (e3 : Fin (k + 1) → FV K)
    (rows : List (FV K × FV K × FV K × K)) : Except Err (Fin n → Fin m → Fin k → K) :=
  if badEdges e1 ∨ badEdges e2 ∨ badEdges e3 then .error .valueError
  else .ok fun i j l => ((rows.filter fun r =>
    decide (histddBin (List.ofFn e1) r.1 = some i.val) && decide (histddBin (List.ofFn e2) r.2.1 = some j.val) &&
      decide (histddBin (List.ofFn e3) r.2.2.1 = some l.val)).map (fun r => r.2.2.2)).sum

/-- A numpy array with three axes. -/
structure Arr3 (α : Type*) where
  shape : ℕ × ℕ × ℕ
  val : ℕ → ℕ → ℕ → α

/-- length of a broadcast axis: equal lengths, or one of them 1 -/
def bcastLen (a b : ℕ) : Option ℕ := if a = b then some a else if a = 1 then some b else if b = 1 then some a else none

/-- index into an axis of length `n` that may be broadcast -/
def bcastIdx (n i : ℕ) : ℕ := if n = 1 then 0 else i

/-- elementwise operation with numpy's broadcasting rules (ValueError if the shapes do not fit) -/
def broadcast3 {α β γ : Type*} (f : α → β → γ) (a : Arr3 α) (b : Arr3 β) : Except Err (Arr3 γ) :=
  match bcastLen a.shape.1 b.shape.1, bcastLen a.shape.2.1 b.shape.2.1, bcastLen a.shape.2.2 b.shape.2.2 with
  | some n, some m, some k => .ok ⟨(n, m, k), fun i j l =>
      f (a.val (bcastIdx a.shape.1 i) (bcastIdx a.shape.2.1 j) (bcastIdx a.shape.2.2 l))
        (b.val (bcastIdx b.shape.1 i) (bcastIdx b.shape.2.1 j) (bcastIdx b.shape.2.2 l))⟩
  | _, _, _ => .error .valueError

/-- an array from a function on its index ranges (entries outside the shape are not looked at) -/
def Arr3.ofFn {α : Type*} {n m k : ℕ} (d : α) (f : Fin n → Fin m → Fin k → α) : Arr3 α :=
  ⟨(n, m, k), fun i j l => if h : i < n ∧ j < m ∧ l < k then f ⟨i, h.1⟩ ⟨j, h.2.1⟩ ⟨l, h.2.2⟩ else d⟩

end Np

/-! ## Lemmas -/

theorem IncEdges.increasing {n : ℕ} {e : Fin (n + 1) → FV K} (h : IncEdges e) : Increasing (List.ofFn e) := by
  refine ⟨fun x hx => ?_, ?_⟩
  · obtain ⟨i, rfl⟩ := (List.mem_ofFn' _ _).mp hx
    exact h.1 i
  · rw [List.pairwise_ofFn]
    intro i j hij
    exact h.2 i j hij.le

theorem IncEdges.not_bad {n : ℕ} {e : Fin (n + 1) → FV K} (h : IncEdges e) : ¬ Np.badEdges e := by
  rintro ⟨i, hi⟩
  have := h.2 i.castSucc i.succ (Fin.castSucc_lt_succ).le
  unfold FV.gt at hi
  rw [FV.not_lt_of_le this] at hi
  exact absurd hi (by simp)

theorem incEdges_fin {n : ℕ} {r : Fin (n + 1) → K} (h : Monotone r) : IncEdges (fun i => FV.fin (r i)) :=
  ⟨fun i => by simp, fun i j hij => by simpa using h hij⟩

theorem inBinOf_iff {n : ℕ} (e : Fin (n + 1) → FV K) (i : Fin n) (x : FV K) : InHistBin (List.ofFn e) i x ↔ InBinOf e i x := by
  unfold InHistBin InBinOf
  have hl : (i : ℕ) + 1 < (List.ofFn e).length := by simp
  constructor
  · rintro ⟨h, h1, h2⟩
    simp only [List.getElem_ofFn, List.length_ofFn] at h1 h2
    refine ⟨h1, ?_⟩
    rcases h2 with h2 | ⟨h2, h3⟩
    · exact Or.inl h2
    · exact Or.inr ⟨by omega, h3⟩
  · rintro ⟨h1, h2⟩
    refine ⟨hl, ?_⟩
    simp only [List.getElem_ofFn, List.length_ofFn]
    refine ⟨h1, ?_⟩
    rcases h2 with h2 | ⟨h2, h3⟩
    · exact Or.inl h2
    · exact Or.inr ⟨by omega, h3⟩

theorem histddBin_iff {n : ℕ} {e : Fin (n + 1) → FV K} (h : IncEdges e) (i : Fin n) (x : FV K) :
    Np.histddBin (List.ofFn e) x = some i.val ↔ InBinOf e i x := by
  rw [histddBin_eq_some h.increasing, inBinOf_iff]

theorem inBinOf_unique {n : ℕ} {e : Fin (n + 1) → FV K} (h : IncEdges e) {i j : Fin n} {x : FV K} (hi : InBinOf e i x)
    (hj : InBinOf e j x) : i = j := by
  have := ((histddBin_iff h i x).mpr hi).symm.trans ((histddBin_iff h j x).mpr hj)
  ext; exact Option.some.inj this

theorem inBinOf_range {n : ℕ} {e : Fin (n + 1) → FV K} (h : IncEdges e) (hn : 0 < n) (x : FV K) :
    (∃ i, InBinOf e i x) ↔ InRangeOf e x := by
  constructor
  · rintro ⟨i, h1, h2⟩
    refine ⟨FV.le_trans' (h.2 0 i.castSucc (Fin.zero_le _)) h1, ?_⟩
    have h3 : FV.le x (e i.succ) = true := by
      rcases h2 with h2 | ⟨-, h2⟩
      · exact FV.le_of_lt' h2
      · exact h2
    exact FV.le_trans' h3 (h.2 _ _ (Fin.le_last _))
  · rintro ⟨h1, h2⟩
    obtain ⟨i, hi⟩ := exists_inHistBin h.increasing (by simp; omega) (x := x) (by
      refine ⟨by simp, ?_, ?_⟩
      · rw [List.getElem_ofFn]; exact h1
      · rw [List.getElem_ofFn]
        have : (⟨(List.ofFn e).length - 1, by simp⟩ : Fin (n + 1)) = Fin.last n := by ext; simp
        rw [this]; exact h2)
    obtain ⟨hl, _⟩ := id hi
    simp only [List.length_ofFn] at hl
    exact ⟨⟨i, by omega⟩, (inBinOf_iff e ⟨i, by omega⟩ x).mp hi⟩

/-- Specification: sum of the weights of the entries with a property. -/
def sumWhere {ρ : Type*} (rows : List ρ) (P : ρ → Prop) [DecidablePred P] (w : ρ → K) : K := ((rows.filter P).map w).sum

section sums
variable {ρ : Type*}

theorem sumWhere_nil (P : ρ → Prop) [DecidablePred P] (w : ρ → K) : sumWhere [] P w = 0 := by simp [sumWhere]

theorem sumWhere_cons (r : ρ) (rows : List ρ) (P : ρ → Prop) [DecidablePred P] (w : ρ → K) :
    sumWhere (r :: rows) P w = (if P r then w r else 0) + sumWhere rows P w := by
  unfold sumWhere
  by_cases h : P r <;> simp [List.filter_cons, h]

theorem sumWhere_append (r s : List ρ) (P : ρ → Prop) [DecidablePred P] (w : ρ → K) :
    sumWhere (r ++ s) P w = sumWhere r P w + sumWhere s P w := by
  simp [sumWhere]

theorem sumWhere_perm {r s : List ρ} (h : r.Perm s) (P : ρ → Prop) [DecidablePred P] (w : ρ → K) :
    sumWhere r P w = sumWhere s P w := by
  unfold sumWhere; exact ((h.filter _).map _).sum_eq

theorem sumWhere_congr (rows : List ρ) {P Q : ρ → Prop} [DecidablePred P] [DecidablePred Q] {w v : ρ → K} (h : ∀ r ∈ rows, P r ↔ Q r)
    (hw : ∀ r ∈ rows, w r = v r) : sumWhere rows P w = sumWhere rows Q v := by
  induction rows with
  | nil => simp [sumWhere]
  | cons r rows ih =>
    rw [sumWhere_cons, sumWhere_cons, ih (fun r hr => h r (List.mem_cons_of_mem _ hr)) (fun r hr => hw r (List.mem_cons_of_mem _ hr)),
      hw r List.mem_cons_self]
    simp only [h r List.mem_cons_self]

theorem sumWhere_map {σ : Type*} (rows : List σ) (f : σ → ρ) (P : ρ → Prop) [DecidablePred P] (w : ρ → K) :
    sumWhere (rows.map f) P w = sumWhere rows (fun s => P (f s)) (fun s => w (f s)) := by
  induction rows with
  | nil => simp [sumWhere]
  | cons r rows ih => rw [List.map_cons, sumWhere_cons, sumWhere_cons, ih]

/-- disjoint cells that cover a set -/
theorem sum_sumWhere {ι : Type*} [Fintype ι] (rows : List ρ) (P : ι → ρ → Prop) [∀ i, DecidablePred (P i)] (Q : ρ → Prop)
    [DecidablePred Q] (w : ρ → K) (hu : ∀ r i j, P i r → P j r → i = j) (hc : ∀ r, Q r ↔ ∃ i, P i r) :
    ∑ i, sumWhere rows (P i) w = sumWhere rows Q w := by
  classical
  induction rows with
  | nil => simp [sumWhere]
  | cons r rows ih =>
    simp only [sumWhere_cons]
    rw [Finset.sum_add_distrib, ih]
    congr 1
    by_cases hq : Q r
    · rw [if_pos hq]
      obtain ⟨i, hi⟩ := (hc r).mp hq
      rw [Finset.sum_eq_single i]
      · rw [if_pos hi]
      · intro j _ hj; rw [if_neg (fun h => hj (hu r j i h hi))]
      · simp
    · rw [if_neg hq]
      apply Finset.sum_eq_zero
      intro i _
      rw [if_neg (fun h => hq ((hc r).mpr ⟨i, h⟩))]

variable [IsStrictOrderedRing K]

theorem sumWhere_nonneg (rows : List ρ) (P : ρ → Prop) [DecidablePred P] (w : ρ → K) (h : ∀ r ∈ rows, 0 ≤ w r) : 0 ≤ sumWhere rows P w := by
  unfold sumWhere
  apply List.sum_nonneg
  intro x hx
  obtain ⟨r, hr, rfl⟩ := List.mem_map.mp hx
  exact h r (List.mem_of_mem_filter hr)

theorem sumWhere_one (rows : List ρ) (P : ρ → Prop) [DecidablePred P] :
    sumWhere rows P (fun _ => (1 : K)) = ((rows.filter P).length : K) := by
  simp [sumWhere]

theorem sumWhere_one_ne (rows : List ρ) (P : ρ → Prop) [DecidablePred P] :
    sumWhere rows P (fun _ => (1 : K)) ≠ 0 ↔ ∃ r ∈ rows, P r := by
  rw [sumWhere_one]
  simp only [ne_eq, Nat.cast_eq_zero, List.length_eq_zero_iff, List.filter_eq_nil_iff, decide_eq_true_eq, not_forall, not_not, exists_prop]
end sums

theorem histogram2d_ok {n m : ℕ} {e1 : Fin (n + 1) → FV K} {e2 : Fin (m + 1) → FV K} (h1 : IncEdges e1) (h2 : IncEdges e2)
    (rows : List (FV K × FV K × K)) :
    Np.histogram2d e1 e2 rows = .ok fun i j => sumWhere rows (fun r => InBinOf e1 i r.1 ∧ InBinOf e2 j r.2.1) (fun r => r.2.2) := by
  unfold Np.histogram2d
  rw [if_neg (by rintro (h | h); exacts [h1.not_bad h, h2.not_bad h])]
  congr 1
  funext i j
  unfold sumWhere
  congr 2
  apply List.filter_congr
  intro r _
  simp only [histddBin_iff h1, histddBin_iff h2, Bool.decide_and]

theorem histogram3d_ok {n m k : ℕ} {e1 : Fin (n + 1) → FV K} {e2 : Fin (m + 1) → FV K} {e3 : Fin (k + 1) → FV K} (h1 : IncEdges e1)
    (h2 : IncEdges e2) (h3 : IncEdges e3) (rows : List (FV K × FV K × FV K × K)) :
    Np.histogram3d e1 e2 e3 rows = .ok fun i j l =>
      sumWhere rows (fun r => InBinOf e1 i r.1 ∧ InBinOf e2 j r.2.1 ∧ InBinOf e3 l r.2.2.1) (fun r => r.2.2.2) := by
  unfold Np.histogram3d
  rw [if_neg (by rintro (h | h | h); exacts [h1.not_bad h, h2.not_bad h, h3.not_bad h])]
  congr 1
  funext i j l
  unfold sumWhere
  congr 2
  apply List.filter_congr
  intro r _
  simp only [histddBin_iff h1, histddBin_iff h2, histddBin_iff h3, Bool.decide_and, Bool.and_assoc]

end Pyirf
