import Verif.Binning.Lemmas
import Mathlib.Data.Rat.Cast.Order

/-!
# Property C07: resampling a histogram

The spline that scipy fits is a parameter `spline` of the model; the only assumption on it is
`ThroughNodes`: on strictly increasing nodes it reproduces the node values. All statements hold for every
such interpolant.
-/
set_option linter.unusedSectionVars false

namespace Pyirf.Binning
open Pyirf
variable {K : Type*} [Field K] [LinearOrder K] [IsStrictOrderedRing K]

/-- Contract of the interpolant: it passes through its nodes. -/
def ThroughNodes {m : ℕ} (spline : (Fin m → K) → (Fin m → K) → K → K) : Prop :=
  ∀ xs ys : Fin m → K, StrictMono xs → ∀ i, spline xs ys (xs i) = ys i

/-- The result of the code for finite, strictly increasing old edges and finite new edges, as a function. -/
theorem resample_finite {n m : ℕ} (hn : n ≠ 0) (spline : (Fin (n + 2) → K) → (Fin (n + 2) → K) → K → K) (big : K)
    (data : Fin (n + 1) → K) (old : Fin (n + 2) → K) (new : Fin (m + 1) → K) :
    resampleHistogram1d spline big data (fun i => .fin (old i)) (fun j => .fin (new j)) =
      .ok fun j =>
        let norm := if ∑ j, data j = 0 then 1 else ∑ j, data j
        let f := interpFill spline old (fun i => cumsum0 data i / norm)
        (f (new j.succ) - f (new j.castSucc)) * norm := by
  unfold resampleHistogram1d
  rw [if_neg hn]
  rfl

theorem interpFill_node {m : ℕ} {spline : (Fin (m + 1) → K) → (Fin (m + 1) → K) → K → K} (hs : ThroughNodes spline)
    {xs : Fin (m + 1) → K} (hx : StrictMono xs) (ys : Fin (m + 1) → K) (i : Fin (m + 1)) :
    interpFill spline xs ys (xs i) = ys i := by
  unfold interpFill
  rw [if_neg (not_lt.mpr (hx.monotone (Fin.zero_le i))), if_neg (not_lt.mpr (hx.monotone (Fin.le_last i)))]
  exact hs xs ys hx i

theorem sum_succ_sub {m : ℕ} (g : Fin (m + 1) → K) :
    ∑ j : Fin m, (g j.succ - g j.castSucc) = g (Fin.last m) - g 0 := by
  induction m with
  | zero => simp
  | succ m ih =>
    rw [Fin.sum_univ_castSucc]
    have := ih (fun i => g i.castSucc)
    simp only [Fin.succ_castSucc, Fin.castSucc_zero] at this ⊢
    rw [this, Fin.succ_last]
    ring

/-- **C07** (conservation) If the histogram's total is not zero and the new edges extend over the old range, the
new contents add up to the old total. -/
theorem C07_conserves_total {n m : ℕ} (hn : n ≠ 0) (spline : (Fin (n + 2) → K) → (Fin (n + 2) → K) → K → K)
    (hs : ThroughNodes spline) (big : K) (data : Fin (n + 1) → K) (old : Fin (n + 2) → K) (hold : StrictMono old)
    (new : Fin (m + 1) → K) (hlo : new 0 ≤ old 0) (hhi : old (Fin.last _) ≤ new (Fin.last m))
    (htot : ∑ j, data j ≠ 0) :
    ∃ out, resampleHistogram1d spline big data (fun i => .fin (old i)) (fun j => .fin (new j)) = .ok out ∧
      ∑ j, out j = ∑ j, data j := by
  refine ⟨_, resample_finite hn spline big data old new, ?_⟩
  simp only [if_neg htot]
  rw [← Finset.sum_mul]
  set f := interpFill spline old (fun i => cumsum0 data i / ∑ j, data j) with hf
  have hsum := sum_succ_sub (fun j => f (new j))
  rw [hsum]
  have h0 : f (new 0) = 0 := by
    rcases lt_or_eq_of_le hlo with h | h
    · simp [hf, interpFill, h]
    · rw [hf, h, interpFill_node hs hold]; simp [cumsum0_zero]
  have h1 : f (new (Fin.last m)) = 1 := by
    rcases lt_or_eq_of_le hhi with h | h
    · have h2 : ¬ (new (Fin.last m) < old 0) :=
        not_lt.mpr (le_trans (hold.monotone (Fin.zero_le _)) h.le)
      simp [hf, interpFill, h, h2]
    · rw [hf, ← h, interpFill_node hs hold]
      have : cumsum0 data (Fin.last (n+1)) = ∑ j, data j := cumsum0_last data
      rw [this, div_self htot]
  rw [h0, h1]; ring

/-- **C07** (merging) If every new edge is an old edge (new edge `j` = old edge `a j`, `a` non-decreasing), each new
bin holds exactly the sum of the old bins between its edges – for every histogram, also an empty one. -/
theorem C07_merges_bins {n m : ℕ} (hn : n ≠ 0) (spline : (Fin (n + 2) → K) → (Fin (n + 2) → K) → K → K)
    (hs : ThroughNodes spline) (big : K) (data : Fin (n + 1) → K) (old : Fin (n + 2) → K) (hold : StrictMono old)
    (a : Fin (m + 1) → Fin (n + 2)) (ha : Monotone a) :
    ∃ out, resampleHistogram1d spline big data (fun i => .fin (old i)) (fun j => .fin (old (a j))) = .ok out ∧
      ∀ j : Fin m, out j = ∑ i : Fin (n + 1),
        if (a j.castSucc).val ≤ i.val ∧ i.val < (a j.succ).val then data i else 0 := by
  refine ⟨_, resample_finite hn spline big data old (fun j => old (a j)), ?_⟩
  intro j
  simp only [interpFill_node hs hold]
  have hne : (if ∑ j, data j = 0 then (1:K) else ∑ j, data j) ≠ 0 := by
    split
    · exact one_ne_zero
    · assumption
  rw [← cumsum0_sub data (a j.castSucc) (a j.succ) (ha (Fin.castSucc_le_succ j))]
  field_simp

/-- **C07** (identity) Resampling to the same edges returns the histogram. -/
theorem C07_identity {n : ℕ} (hn : n ≠ 0) (spline : (Fin (n + 2) → K) → (Fin (n + 2) → K) → K → K)
    (hs : ThroughNodes spline) (big : K) (data : Fin (n + 1) → K) (old : Fin (n + 2) → K) (hold : StrictMono old) :
    resampleHistogram1d spline big data (fun i => .fin (old i)) (fun i => .fin (old i)) = .ok data := by
  obtain ⟨out, h1, h2⟩ := C07_merges_bins hn spline hs big data old hold id monotone_id
  refine Eq.trans h1 ?_
  congr 1
  funext j
  rw [h2 j]
  rw [Finset.sum_eq_single j]
  · simp
  · intro b _ hb
    have : ¬ ((id j.castSucc : Fin (n+2)).val ≤ b.val ∧ b.val < (id j.succ : Fin (n+2)).val) := by
      simp only [id, Fin.val_castSucc, Fin.val_succ]
      have : b.val ≠ j.val := fun h => hb (Fin.ext h)
      omega
    rw [if_neg this]
  · simp

/-- **C07** (outside) A new bin that lies entirely below or entirely above the old range has content 0. -/
theorem C07_outside_zero {n m : ℕ} (hn : n ≠ 0) (spline : (Fin (n + 2) → K) → (Fin (n + 2) → K) → K → K)
    (big : K) (data : Fin (n + 1) → K) (old : Fin (n + 2) → K) (hold : StrictMono old)
    (new : Fin (m + 1) → K) (out : Fin m → K)
    (hout : resampleHistogram1d spline big data (fun i => .fin (old i)) (fun j => .fin (new j)) = .ok out)
    (j : Fin m) (hmono : new j.castSucc ≤ new j.succ)
    (h : new j.succ < old 0 ∨ old (Fin.last _) < new j.castSucc) : out j = 0 := by
  rw [resample_finite hn] at hout
  obtain rfl := Except.ok.inj hout
  simp only []
  rcases h with h | h
  · have h2 : new j.castSucc < old 0 := lt_of_le_of_lt hmono h
    simp [interpFill, h, h2]
  · have h2 : old (Fin.last _) < new j.succ := lt_of_lt_of_le h hmono
    have h3 : old 0 ≤ old (Fin.last (n+1)) := hold.monotone (Fin.zero_le _)
    have h4 : ¬ (new j.castSucc < old 0) := not_lt.mpr (le_trans h3 h.le)
    have h5 : ¬ (new j.succ < old 0) := not_lt.mpr (le_trans h3 h2.le)
    simp [interpFill, h, h2, h4, h5]

/-- **C73** Resampling an empty histogram to non-decreasing new edges: the new bin that crosses the upper end of the old range gets 1, all
others 0 – for every interpolant that maps zero node values to the zero function (as a spline does). -/
theorem C73_empty_formula {n m : ℕ} (hn : n ≠ 0)
    (spline : (Fin (n + 2) → K) → (Fin (n + 2) → K) → K → K)
    (hz : ∀ xs t, spline xs (fun _ => 0) t = 0) (big : K) (old : Fin (n + 2) → K) (hold : Monotone old)
    (new : Fin (m + 1) → K) (hnew : Monotone new) :
    resampleHistogram1d spline big (fun _ => 0) (fun i => .fin (old i)) (fun j => .fin (new j)) =
      .ok (fun j => if new j.castSucc ≤ old (Fin.last _) ∧ old (Fin.last _) < new j.succ then 1 else 0) := by
  rw [resample_finite hn]
  congr 1
  funext j
  have hc : (fun i : Fin (n + 2) => cumsum0 (fun _ : Fin (n + 1) => (0:K)) i / 1) = fun _ => 0 := by
    funext i; simp [cumsum0]
  have hf : ∀ t, interpFill spline old (fun i => cumsum0 (fun _ : Fin (n + 1) => (0:K)) i / 1) t =
      if old (Fin.last _) < t then 1 else 0 := by
    intro t
    unfold interpFill
    rw [hc, hz]
    by_cases h1 : t < old 0
    · rw [if_pos h1, if_neg (not_lt.mpr (h1.le.trans (hold (Fin.zero_le _))))]
    · rw [if_neg h1]
  simp only [Finset.sum_const_zero, if_true, mul_one]
  rw [hf, hf]
  have hjj := hnew (Fin.castSucc_le_succ j)
  by_cases h1 : old (Fin.last _) < new j.castSucc
  · rw [if_pos h1, if_pos (h1.trans_le hjj), if_neg (fun h => absurd h1 (not_lt.mpr h.1)), sub_self]
  · rw [if_neg h1]
    by_cases h2 : old (Fin.last _) < new j.succ
    · rw [if_pos h2, if_pos ⟨not_lt.mp h1, h2⟩, sub_zero]
    · rw [if_neg h2, if_neg (fun h => h2 h.2), sub_zero]

/-- **C73** So an empty histogram stays empty exactly if the new edges do not cross the upper end of the old range. -/
theorem C73_empty_stays_empty_iff {n m : ℕ} (hn : n ≠ 0)
    (spline : (Fin (n + 2) → K) → (Fin (n + 2) → K) → K → K)
    (hz : ∀ xs t, spline xs (fun _ => 0) t = 0) (big : K) (old : Fin (n + 2) → K) (hold : Monotone old)
    (new : Fin (m + 1) → K) (hnew : Monotone new) :
    resampleHistogram1d spline big (fun _ => 0) (fun i => .fin (old i)) (fun j => .fin (new j)) = .ok (fun _ => 0) ↔
      ¬ (new 0 ≤ old (Fin.last _) ∧ old (Fin.last _) < new (Fin.last m)) := by
  rw [C73_empty_formula hn spline hz big old hold new hnew]
  constructor
  · intro h ⟨h0, h1⟩
    have h' := Except.ok.inj h
    have key : ∀ j : Fin (m + 1), new j ≤ old (Fin.last _) := by
      intro j
      induction j using Fin.induction with
      | zero => exact h0
      | succ j ih =>
        by_contra hc
        have := congrFun h' j
        rw [if_pos ⟨ih, not_le.mp hc⟩] at this
        exact one_ne_zero this
    exact absurd h1 (not_lt.mpr (key _))
  · intro h
    congr 1
    funext j
    rw [if_neg]
    rintro ⟨h0, h1⟩
    exact h ⟨(hnew (Fin.zero_le _)).trans h0, h1.trans_le (hnew (Fin.le_last _))⟩

/-- **C73** Whenever the new edges start at or below the old range and end above it, the new contents add up to 1
(whatever the interpolant does inside). -/
theorem C73_empty_gains_content {n m : ℕ} (hn : n ≠ 0)
    (spline : (Fin (n + 2) → K) → (Fin (n + 2) → K) → K → K)
    (hs : ThroughNodes spline) (big : K) (old : Fin (n + 2) → K) (hold : StrictMono old)
    (new : Fin (m + 1) → K) (hlo : new 0 ≤ old 0) (hhi : old (Fin.last _) < new (Fin.last m)) :
    ∃ out, resampleHistogram1d spline big (fun _ => 0) (fun i => .fin (old i)) (fun j => .fin (new j)) = .ok out ∧
      ∑ j, out j = 1 := by
  refine ⟨_, resample_finite hn spline big _ old new, ?_⟩
  simp only [Finset.sum_const_zero, if_true, mul_one]
  rw [sum_succ_sub (fun j => interpFill spline old (fun i => cumsum0 (fun _ => (0:K)) i / 1) (new j))]
  have h0 : interpFill spline old (fun i => cumsum0 (fun _ => (0:K)) i / 1) (new 0) = 0 := by
    rcases lt_or_eq_of_le hlo with h | h
    · simp [interpFill, h]
    · rw [h, interpFill_node hs hold]; simp [cumsum0_zero]
  have h2 : ¬ (new (Fin.last m) < old 0) :=
    not_lt.mpr (le_trans (hold.monotone (Fin.zero_le _)) hhi.le)
  rw [h0]
  simp [interpFill, hhi, h2]

/-- **C07** (infinite outer edges) Infinite first and last old edges are replaced by finite ones, the neighbouring edge
shifted by the distance of the second and second-last edge; the rest of the algorithm sees that array. -/
theorem C07_infinite_edges {n m : ℕ} (spline : (Fin (n + 3) → K) → (Fin (n + 3) → K) → K → K) (big : K)
    (data : Fin (n + 2) → K) (inner : Fin (n + 1) → K) (new : Fin (m + 1) → FV K) :
    resampleHistogram1d spline big data
        (Fin.snoc (Fin.cons FV.ninf (fun i => FV.fin (inner i)) : Fin (n + 2) → FV K) FV.pinf) new =
      resampleHistogram1d spline big data
        (fun i => FV.fin ((Fin.snoc
          (Fin.cons (inner 0 - (inner (Fin.last n) - inner 0)) inner : Fin (n + 2) → K)
          (inner (Fin.last n) + (inner (Fin.last n) - inner 0)) : Fin (n + 3) → K) i)) new := by
  have hfix : fixOldEdges (n := n + 1)
        (Fin.snoc (Fin.cons FV.ninf (fun i => FV.fin (inner i)) : Fin (n + 2) → FV K) FV.pinf : Fin (n + 3) → FV K)
      = fixOldEdges (n := n + 1) (fun i => FV.fin ((Fin.snoc
          (Fin.cons (inner 0 - (inner (Fin.last n) - inner 0)) inner : Fin (n + 2) → K)
          (inner (Fin.last n) + (inner (Fin.last n) - inner 0)) : Fin (n + 3) → K) i)) := by
    have key : ∀ (lo hi : FV K), (Fin.snoc (Fin.cons lo (fun i => FV.fin (inner i)) : Fin (n + 2) → FV K) hi
          : Fin (n + 3) → FV K) ⟨1, by omega⟩ = FV.fin (inner 0) ∧
        (Fin.snoc (Fin.cons lo (fun i => FV.fin (inner i)) : Fin (n + 2) → FV K) hi
          : Fin (n + 3) → FV K) ⟨n + 1, by omega⟩ = FV.fin (inner (Fin.last n)) := by
      intro lo hi
      have e1 : (⟨1, by omega⟩ : Fin (n + 3)) = Fin.castSucc (Fin.succ 0 : Fin (n + 2)) := rfl
      have e2 : (⟨n + 1, by omega⟩ : Fin (n + 3)) = Fin.castSucc (Fin.succ (Fin.last n)) := rfl
      rw [e1, e2, Fin.snoc_castSucc, Fin.snoc_castSucc, Fin.cons_succ, Fin.cons_succ]
      exact ⟨rfl, rfl⟩
    have hrhs : (fun i => FV.fin ((Fin.snoc
          (Fin.cons (inner 0 - (inner (Fin.last n) - inner 0)) inner : Fin (n + 2) → K)
          (inner (Fin.last n) + (inner (Fin.last n) - inner 0)) : Fin (n + 3) → K) i))
        = (Fin.snoc (Fin.cons (FV.fin (inner 0 - (inner (Fin.last n) - inner 0)))
            (fun i => FV.fin (inner i)) : Fin (n + 2) → FV K)
            (FV.fin (inner (Fin.last n) + (inner (Fin.last n) - inner 0))) : Fin (n + 3) → FV K) := by
      funext i
      refine Fin.lastCases ?_ (fun i => ?_) i
      · simp only [Fin.snoc_last]
      · refine Fin.cases ?_ (fun i => ?_) i
        · simp only [Fin.snoc_castSucc, Fin.cons_zero]
        · simp only [Fin.snoc_castSucc, Fin.cons_succ]
    rw [hrhs]
    funext i
    unfold fixOldEdges
    simp only [(key _ _).1, (key _ _).2]
    refine Fin.lastCases ?_ (fun i => ?_) i
    · simp only [Fin.snoc_last]; simp [FV.nanToNum, finVal]
    · refine Fin.cases ?_ (fun i => ?_) i
      · simp only [Fin.snoc_castSucc, Fin.cons_zero]; simp [FV.nanToNum, finVal]
      · simp only [Fin.snoc_castSucc, Fin.cons_succ]
  unfold resampleHistogram1d
  rw [hfix]

/-- Satisfiability: an interpolant through the nodes exists (look the node up, 0 elsewhere), a strictly increasing
edge array with three bins and a non-empty histogram. -/
example : ThroughNodes (K := ℚ) (m := 4)
      (fun xs ys t => ∑ i, if xs i = t then ys i else 0) ∧
    StrictMono (fun i : Fin 4 => (i.val : ℚ)) ∧ ∑ j : Fin 3, ((j.val : ℚ) + 1) ≠ 0 := by
  refine ⟨?_, ?_, ?_⟩
  · intro xs ys hx i
    simp only []
    rw [Finset.sum_eq_single i]
    · simp
    · intro b _ hb; rw [if_neg (fun h => hb (hx.injective h))]
    · simp
  · intro a b h; simpa using h
  · simp [Fin.sum_univ_succ]; norm_num

end Pyirf.Binning
