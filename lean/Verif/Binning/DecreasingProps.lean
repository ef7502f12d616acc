import Verif.Binning.Props

/-!
# C01: decreasing edges
-/
set_option linter.unusedSectionVars false
set_option linter.unusedSimpArgs false

namespace Pyirf.Binning
open Pyirf
variable {K : Type*} [Field K] [LinearOrder K] [IsStrictOrderedRing K]

theorem Decreasing.tail {e : FV K} {es : List (FV K)} (h : Decreasing (e :: es)) : Decreasing es :=
  ⟨fun a ha => h.1 a (List.mem_cons_of_mem _ ha), (List.pairwise_cons.mp h.2).2⟩

theorem Decreasing.reverse {es : List (FV K)} (h : Decreasing es) : Increasing es.reverse :=
  ⟨fun e he => h.1 e (List.mem_reverse.1 he), List.pairwise_reverse.2 h.2⟩

theorem Decreasing.noAscent {es : List (FV K)} (h : Decreasing es) : Np.noAscent es = true := by
  induction es with
  | nil => rfl
  | cons a l ih =>
    cases l with
    | nil => rfl
    | cons b l =>
      have hab : FV.le b a = true := (List.pairwise_cons.mp h.2).1 b (by simp)
      simp [Np.noAscent, ih (Decreasing.tail h), FV.not_lt_of_le hab]

/-- numpy recognises decreasing edges, unless all are equal -/
theorem Decreasing.monotonicity {es : List (FV K)} (h : Decreasing es) (hi : ¬ Increasing es) : Np.monotonicity es = -1 := by
  induction es with
  | nil => exact absurd ⟨by simp, List.Pairwise.nil⟩ hi
  | cons a l ih =>
    cases l with
    | nil => exact absurd ⟨h.1, List.pairwise_singleton _ _⟩ hi
    | cons b l =>
      have hba : FV.le b a = true := (List.pairwise_cons.mp h.2).1 b (by simp)
      unfold Np.monotonicity
      split
      · rename_i heq
        obtain ⟨rfl, -⟩ := (FV.beq_iff b a).mp heq
        apply ih (Decreasing.tail h)
        intro hc
        apply hi
        refine ⟨h.1, List.pairwise_cons.mpr ⟨?_, hc.2⟩⟩
        intro c hcm
        rcases List.mem_cons.1 hcm with rfl | hcm
        · exact FV.le_refl' (h.1 _ (by simp))
        · exact (List.pairwise_cons.mp hc.2).1 c hcm
      · simp [FV.not_lt_of_le hba, Decreasing.noAscent (Decreasing.tail h)]

/-- **C01** (decreasing edges) For edges that decrease (and are not all equal) the bin `i` lies below edge `i`: index `i` with valid=True exactly if `edges[i+1] <= x < edges[i]`; UNDERFLOW_INDEX exactly if `x >= edges[0]` or `x` is NaN,
OVERFLOW_INDEX exactly if `x < edges[-1]`, so the two sentinels change their meaning. -/
theorem C01_decreasing (edges data : List (FV K)) (h : Decreasing edges) (hi : ¬ Increasing edges) (hl : 0 < edges.length) (unit : Bool) :
    ∃ res : List (ℤ × Bool), calculateBinIndices unit unit data edges = .ok res ∧ ∃ hlen : res.length = data.length, ∀ (k : ℕ) (hk : k < data.length),
      (∀ i : ℕ, res[k] = ((i : ℤ), true) ↔ ∃ hi : i + 1 < edges.length, FV.le edges[i + 1] data[k] = true ∧ FV.lt data[k] edges[i] = true) ∧
      (res[k] = (-2 ^ 63, false) ↔ (data[k] = FV.nan ∨ FV.le edges[0] data[k] = true)) ∧
      (res[k] = (2 ^ 63 - 1, false) ↔ FV.lt data[k] (edges[edges.length - 1]'(by omega)) = true) ∧
      ((∃ i : ℕ, i + 1 < edges.length ∧ res[k] = ((i : ℤ), true)) ∨ res[k] = (-2 ^ 63, false) ∨ res[k] = (2 ^ 63 - 1, false)) := by
  rw [show ((-2 ^ 63 : ℤ)) = UNDERFLOW_INDEX from rfl, show ((2 ^ 63 - 1 : ℤ)) = OVERFLOW_INDEX from rfl]
  have hm := Decreasing.monotonicity h hi
  have hd : ∀ x, Np.digitize edges x = .ok (edges.length - Np.searchsortedRight edges.reverse x) := by
    intro x; unfold Np.digitize; rw [hm]; simp
  refine ⟨data.map fun x => binIndexOf edges.length (edges.length - Np.searchsortedRight edges.reverse x), ?_, by simp, ?_⟩
  · unfold calculateBinIndices
    have hu' : (unit && !unit) = false := by cases unit <;> rfl
    rw [hu', hm]
    simp only [Bool.false_eq_true, if_false, hd]
    rfl
  intro k hk
  rw [List.getElem_map]
  set x := data[k]
  set d := edges.length - Np.searchsortedRight edges.reverse x with hdd
  have hcl : Np.searchsortedRight edges.reverse x ≤ edges.length := by simpa using searchsortedRight_le edges.reverse x
  have key : ∀ i (hi : i < edges.length), i < d ↔ FV.lt x edges[i] = true := by
    intro i hi
    have hr := lt_searchsortedRight (Decreasing.reverse h) x (edges.length - 1 - i) (by rw [List.length_reverse]; omega)
    have he : edges.reverse[edges.length - 1 - i]'(by rw [List.length_reverse]; omega) = edges[i] := by
      rw [List.getElem_reverse]; congr 1; omega
    rw [he] at hr
    have hen : edges[i] ≠ FV.nan := h.1 _ (List.getElem_mem _)
    constructor
    · intro h1
      have h2 : ¬ (x = FV.nan ∨ FV.le edges[i] x = true) := fun hh => by have := hr.2 hh; omega
      rcases FV.le_or_lt' hen (fun hh => h2 (Or.inl hh)) with h3 | h3
      · exact absurd (Or.inr h3) h2
      · exact h3
    · intro h1
      by_contra hc
      rcases hr.1 (by omega) with h2 | h2
      · exact (FV.ne_nan_of_lt h1).1 h2
      · rw [FV.not_le_of_lt h1] at h2; exact absurd h2 (by simp)
  have nkey : ∀ i (hi : i < edges.length), ¬ i < d ↔ (x = FV.nan ∨ FV.le edges[i] x = true) := by
    intro i hi
    rw [key i hi]
    have hen : edges[i] ≠ FV.nan := h.1 _ (List.getElem_mem _)
    constructor
    · intro h1
      by_cases hx : x = FV.nan
      · exact Or.inl hx
      · rcases FV.le_or_lt' hen hx with h3 | h3
        · exact Or.inr h3
        · exact absurd h3 h1
    · rintro (h1 | h1) h2
      · exact (FV.ne_nan_of_lt h2).1 h1
      · rw [FV.not_le_of_lt h2] at h1; exact absurd h1 (by simp)
  have hdl : d ≤ edges.length := by omega
  have hU : ¬ UNDERFLOW_INDEX = OVERFLOW_INDEX := underflow_ne_overflow
  -- the three outcomes
  have hb : binIndexOf edges.length d = if d = 0 then (if edges.length = 0 then (OVERFLOW_INDEX, false) else (UNDERFLOW_INDEX, false)) else if d = edges.length then (OVERFLOW_INDEX, false) else (((d - 1 : ℕ) : ℤ), true) := by
    unfold binIndexOf
    by_cases h0 : d = 0
    · rw [if_pos h0, if_neg (by omega), h0]
      have e1 : ¬ (((0 : ℕ) : ℤ) - 1 ≥ (edges.length : ℤ) - 1) := by push_cast; omega
      have e2 : (((0 : ℕ) : ℤ) - 1 < 0) := by norm_num
      simp only [e1, e2, decide_false, decide_true, Bool.false_eq_true, if_false, if_true, Bool.not_false, Bool.not_true, Bool.false_and]
    · rw [if_neg h0]
      have e1 : ¬ ((d : ℤ) - 1 < 0) := by omega
      by_cases h1 : d = edges.length
      · rw [if_pos h1]
        have e2 : ((d : ℤ) - 1 ≥ (edges.length : ℤ) - 1) := by omega
        simp only [e1, e2, decide_false, decide_true, Bool.false_eq_true, if_false, if_true, Bool.not_false, Bool.not_true, Bool.and_false]
      · rw [if_neg h1]
        have e2 : ¬ ((d : ℤ) - 1 ≥ (edges.length : ℤ) - 1) := by omega
        simp only [e1, e2, decide_false, Bool.false_eq_true, if_false, Bool.not_false, Bool.and_true]
        congr 1
        omega
  rw [hb]
  have hl0 : ¬ edges.length = 0 := by omega
  rw [if_neg hl0]
  have kl := key (edges.length - 1) (by omega)
  have k0 := nkey 0 hl
  refine ⟨?_, ?_, ?_, ?_⟩
  · intro i
    constructor
    · intro he
      split_ifs at he with h0 h1
      · simp at he
      · simp at he
      · have hii : d = i + 1 := by
          have := congrArg Prod.fst he
          simp only at this
          omega
        have hi1 : i + 1 < edges.length := by omega
        refine ⟨hi1, ?_, (key i (by omega)).1 (by omega)⟩
        have hx : x ≠ FV.nan := (FV.ne_nan_of_lt ((key i (by omega)).1 (by omega))).1
        exact ((nkey (i + 1) hi1).1 (by omega)).resolve_left hx
    · rintro ⟨hi1, h1, h2⟩
      have a := (key i (by omega)).2 h2
      have b := (nkey (i + 1) hi1).2 (Or.inr h1)
      have : d = i + 1 := by omega
      rw [if_neg (by omega), if_neg (by omega), this]
      simp
  · rw [← k0]
    split_ifs with h0 h1
    · simp [h0]
    · simp only [Prod.mk.injEq, and_true]
      exact ⟨fun hh => absurd hh.symm hU, fun hh => by omega⟩
    · simp; omega
  · rw [← kl]
    split_ifs with h0 h1
    · simp only [Prod.mk.injEq, and_true]
      exact ⟨fun hh => absurd hh hU, fun hh => by omega⟩
    · simp; omega
    · simp; omega
  · split_ifs with h0 h1
    · exact Or.inr (Or.inl rfl)
    · exact Or.inr (Or.inr rfl)
    · exact Or.inl ⟨d - 1, by omega, rfl⟩

/-- edges 3, 2, 1; values 2.5 (bin 0), 2 (bin 0), 1 (bin 1), 3 (UNDERFLOW), 0 (OVERFLOW), NaN (UNDERFLOW) -/
example : calculateBinIndices false false [.fin (5/2), .fin 2, .fin 1, .fin 3, .fin 0, .nan] [.fin (3 : ℚ), .fin 2, .fin 1] =
    .ok [(0, true), (0, true), (1, true), (-2 ^ 63, false), (2 ^ 63 - 1, false), (-2 ^ 63, false)] ∧
    Decreasing [.fin (3 : ℚ), .fin 2, .fin 1] ∧ ¬ Increasing [.fin (3 : ℚ), .fin 2, .fin 1] := by
  refine ⟨by decide +kernel, ⟨by decide +kernel, by decide +kernel⟩, fun h => ?_⟩
  have := h.getElem_le (i := 0) (j := 1) (by omega) (by decide)
  revert this
  decide +kernel

end Pyirf.Binning
