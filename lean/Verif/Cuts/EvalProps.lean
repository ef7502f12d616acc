import Verif.Cuts.Lemmas

/-!
# Properties C11, C12, C14: evaluating and comparing cuts
-/
set_option linter.unusedSectionVars false
set_option linter.unusedSimpArgs false

namespace Pyirf.Cuts
open Pyirf Pyirf.Binning
variable {K : Type*} [Field K] [LinearOrder K]

/-- A well-formed cut table: `n >= 1` rows, contiguous bins with increasing edges. -/
structure WellFormed {C : Type*} (t : CutTable K C) : Prop where
  /-- at least one row -/
  pos : 0 < t.low.length
  /-- equal column lengths -/
  lenHigh : t.high.length = t.low.length
  /-- equal column lengths -/
  lenCut : t.cut.length = t.low.length
  /-- each bin ends where the next starts -/
  contiguous : ∀ (i : ℕ) (h : i + 1 < t.low.length), t.high[i]'(by omega) = t.low[i + 1]
  /-- the lower edges increase -/
  incLow : Increasing t.low
  /-- the last bin does not end before it starts -/
  incLast : FV.le (t.low[t.low.length - 1]'(by omega)) (t.high[t.low.length - 1]'(by omega)) = true

/-- `b` lies in the half-open bin `[low_i, high_i)` of the table. -/
def RowContains {C : Type*} (t : CutTable K C) (i : ℕ) (b : FV K) : Prop :=
  ∃ (h1 : i < t.low.length) (h2 : i < t.high.length), FV.le t.low[i] b = true ∧ FV.lt b t.high[i] = true

/-! ## Lemmas -/

theorem mapM_ok {α β : Type*} (f : α → Except Err β) (g : α → β) (l : List α) (h : ∀ a ∈ l, f a = .ok (g a)) :
    l.mapM f = .ok (l.map g) := by
  induction l with
  | nil => rfl
  | cons a l ih =>
    rw [List.mapM_cons, h a (by simp), ih (fun b hb => h b (by simp [hb]))]
    rfl

/-- the edge array the code rebuilds from the table -/
def edgesOf {C : Type*} (t : CutTable K C) (h : WellFormed t) : List (FV K) :=
  t.low ++ [t.high[t.low.length - 1]'(by have := h.pos; have := h.lenHigh; omega)]

theorem edges_increasing {C : Type*} (t : CutTable K C) (h : WellFormed t) : Increasing (edgesOf t h) := by
  have hp := h.pos
  have hlast := h.incLast
  constructor
  · intro e he
    simp only [edgesOf, List.mem_append, List.mem_singleton] at he
    rcases he with he | rfl
    · exact h.incLow.1 e he
    · exact (FV.ne_nan_of_le hlast).2
  · unfold edgesOf
    rw [List.pairwise_append]
    refine ⟨h.incLow.2, by simp, ?_⟩
    intro a ha b hb
    simp only [List.mem_singleton] at hb
    subst hb
    obtain ⟨j, hj, rfl⟩ := List.getElem_of_mem ha
    exact FV.le_trans' (h.incLow.getElem_le (by omega) (by omega)) hlast

theorem inBin_edgesOf {C : Type*} (t : CutTable K C) (h : WellFormed t) (i : ℕ) (b : FV K) :
    InBin (edgesOf t h) i b ↔ RowContains t i b := by
  have hp := h.pos
  have hh := h.lenHigh
  have hlen : (edgesOf t h).length = t.low.length + 1 := by simp [edgesOf]
  have hlow : ∀ (hi : i < t.low.length), (edgesOf t h)[i]'(by omega) = t.low[i] := by
    intro hi; simp [edgesOf, List.getElem_append, hi]
  have hhigh : ∀ (hi : i < t.low.length), (edgesOf t h)[i + 1]'(by omega) = t.high[i]'(by omega) := by
    intro hi
    rcases Nat.lt_or_ge (i + 1) t.low.length with h1 | h1
    · rw [h.contiguous i h1]; simp [edgesOf, List.getElem_append, h1]
    · have e : i + 1 = t.low.length := by omega
      simp [edgesOf, List.getElem_append, e]
      congr 1; omega
  constructor
  · rintro ⟨h1, h2, h3⟩
    have hi : i < t.low.length := by omega
    rw [hlow hi] at h2
    rw [hhigh hi] at h3
    exact ⟨hi, by omega, h2, h3⟩
  · rintro ⟨h1, h2, h3, h4⟩
    refine ⟨by omega, ?_, ?_⟩
    · rw [hlow h1]; exact h3
    · rw [hhigh h1]; exact h4

/-- result of the code for one event -/
def selects {C : Type*} (t : CutTable K C) (h : WellFormed t) (op : FV K → C → Bool) (v b : FV K) : Bool :=
  match evalOne t.cut op (v, binIdx (edgesOf t h) b) with | .ok r => r | .error _ => false

theorem evalOne_ok {C : Type*} (t : CutTable K C) (h : WellFormed t) (op : FV K → C → Bool) (v b : FV K) :
    evalOne t.cut op (v, binIdx (edgesOf t h) b) = .ok (selects t h op v b) ∧
    (selects t h op v b = true ↔ ∃ (i : ℕ) (hi : i < t.cut.length), RowContains t i b ∧ op v t.cut[i] = true) := by
  have hinc := edges_increasing t h
  have hlen : (edgesOf t h).length = t.low.length + 1 := by simp [edgesOf]
  have hl : 0 < (edgesOf t h).length := by omega
  have hc := h.lenCut
  rcases bin_cases hinc hl b with hb | ⟨i, hb⟩ | hb
  · have e := binIdx_underflow hinc hl b hb
    have hnot : ∀ i, ¬ InBin (edgesOf t h) i b := fun i hh => by
      have := (binIdx_inBin hinc b i).mpr hh; rw [e] at this; simp at this
    unfold selects evalOne
    simp only [e, Bool.false_eq_true, if_false, true_and, false_iff]
    rintro ⟨i, -, hi, -⟩
    exact hnot i ((inBin_edgesOf t h i b).mpr hi)
  · have e := (binIdx_inBin hinc b i).mpr hb
    have hi : i < t.cut.length := by have := hb.1; omega
    have e2 : evalOne t.cut op (v, binIdx (edgesOf t h) b) = .ok (op v t.cut[i]) := by
      rw [e]; simp [evalOne, npIndex, hi]
    unfold selects
    rw [e2]
    simp only [true_and]
    constructor
    · intro hop; exact ⟨i, hi, (inBin_edgesOf t h i b).mp hb, hop⟩
    · rintro ⟨j, hj, hj2, hop⟩
      have : j = i := inBin_unique hinc ((inBin_edgesOf t h j b).mpr hj2) hb
      subst this; exact hop
  · have e := binIdx_overflow hinc hl b hb
    have hnot : ∀ i, ¬ InBin (edgesOf t h) i b := fun i hh => by
      have := (binIdx_inBin hinc b i).mpr hh; rw [e] at this; simp at this
    unfold selects evalOne
    simp only [e, Bool.false_eq_true, if_false, true_and, false_iff]
    rintro ⟨i, -, hi, -⟩
    exact hnot i ((inBin_edgesOf t h i b).mpr hi)

theorem evaluate_eq {C : Type*} (t : CutTable K C) (h : WellFormed t) (op : FV K → C → Bool)
    (values binValues : List (FV K)) :
    evaluateBinnedCut true values binValues t op
      = .ok ((values.zip binValues).map fun e => selects t h op e.1 e.2) := by
  have hp := h.pos
  have hh := h.lenHigh
  have hgl : t.high.getLast? = some (t.high[t.low.length - 1]'(by omega)) := by
    rw [List.getLast?_eq_getElem?, List.getElem?_eq_getElem (by omega)]
    congr 2; omega
  unfold evaluateBinnedCut
  simp only [hgl, Bool.not_true, Bool.false_eq_true, if_false]
  change (match calculateBinIndices false false binValues (edgesOf t h) with
    | .error e => (Except.error e : Except Err (List Bool))
    | .ok idx => evaluateBinnedCutByIndex true values idx t op) = _
  rw [calculateBinIndices_increasing (edges_increasing t h) _ (by simp)]
  simp only [evaluateBinnedCutByIndex, Bool.not_true, Bool.false_eq_true, if_false]
  rw [List.zip_map_right, ← List.map_id ((values.zip binValues).map _)] 
  rw [List.map_id, List.mapM_map]
  apply mapM_ok
  intro e _
  exact (evalOne_ok t h op e.1 e.2).1

/-! ## C11 -/

/-- **C11** For a well-formed table and any comparison, `evaluate_binned_cut` returns one flag per event, True exactly
when the event's bin value lies in some bin `[low_i, high_i)` and `op(value, cut_i)` holds. In particular events
below, above or with NaN bin value are False. -/
theorem C11_evaluate_binned_cut {C : Type*} (t : CutTable K C) (h : WellFormed t) (op : FV K → C → Bool)
    (values binValues : List (FV K)) (hlen : values.length = binValues.length) :
    ∃ res, evaluateBinnedCut true values binValues t op = .ok res ∧
      ∃ hr : res.length = values.length, ∀ (k : ℕ) (hk : k < values.length),
        res[k] = true ↔ ∃ (i : ℕ) (hi : i < t.cut.length), RowContains t i binValues[k] ∧
          op values[k] t.cut[i] = true := by
  refine ⟨_, evaluate_eq t h op values binValues, by simp [hlen], ?_⟩
  intro k hk
  simp only [List.getElem_map, List.getElem_zip]
  exact (evalOne_ok t h op _ _).2

/-- **C11** Events outside all bins or with NaN bin value are rejected by every comparison. -/
theorem C11_outside_false {C : Type*} (t : CutTable K C) (h : WellFormed t) (op : FV K → C → Bool)
    (v b : FV K) (hb : b = FV.nan ∨ FV.lt b (t.low[0]'h.pos) = true ∨
      FV.le (t.high[t.low.length - 1]'(by have := h.pos; have := h.lenHigh; omega)) b = true) :
    evaluateBinnedCut true [v] [b] t op = .ok [false] := by
  rw [evaluate_eq t h op]
  simp only [List.zip_cons_cons, List.zip_nil_right, List.map_cons, List.map_nil]
  have hs : selects t h op v b = false := by
    rw [← Bool.not_eq_true, (evalOne_ok t h op v b).2]
    rintro ⟨i, hi, ⟨h1, h2, h3, h4⟩, -⟩
    have hp := h.pos
    have hh := h.lenHigh
    rcases hb with rfl | hb | hb
    · simp at h3
    · have h5 := h.incLow.getElem_le (Nat.zero_le i) h1
      have := FV.lt_of_lt_of_le' hb h5
      rw [FV.not_lt_of_le h3] at this; exact absurd this (by simp)
    · have hih : FV.le t.high[i] (t.high[t.low.length - 1]'(by omega)) = true := by
        rcases Nat.lt_or_ge (i + 1) t.low.length with h6 | h6
        · rw [h.contiguous i h6]
          exact FV.le_trans' (h.incLow.getElem_le (by omega) (by omega)) h.incLast
        · have e : i = t.low.length - 1 := by omega
          subst e
          exact FV.le_refl' (FV.ne_nan_of_lt h4).2
      have := FV.lt_of_lt_of_le' h4 (FV.le_trans' hih hb)
      rw [FV.lt_irrefl'] at this; exact absurd this (by simp)
  rw [hs]

/-- **C11** `evaluate_binned_cut` equals `evaluate_binned_cut_by_index` on the indices `calculate_bin_indices`
computes for the table's edges; both raise ValueError if the table is no QTable. -/
theorem C11_by_index {C : Type*} (t : CutTable K C) (h : WellFormed t) (op : FV K → C → Bool)
    (values binValues : List (FV K)) (idx : List (ℤ × Bool))
    (hidx : calculateBinIndices false false binValues
      (t.low ++ [t.high[t.low.length - 1]'(by have := h.pos; have := h.lenHigh; omega)]) = .ok idx) :
    evaluateBinnedCut true values binValues t op = evaluateBinnedCutByIndex true values idx t op ∧
    evaluateBinnedCut false values binValues t op = .error .valueError ∧
    evaluateBinnedCutByIndex false values idx t op = .error .valueError := by
  refine ⟨?_, rfl, rfl⟩
  have hp := h.pos
  have hh := h.lenHigh
  have hgl : t.high.getLast? = some (t.high[t.low.length - 1]'(by omega)) := by
    rw [List.getLast?_eq_getElem?, List.getElem?_eq_getElem (by omega)]
    congr 2; omega
  unfold evaluateBinnedCut
  simp only [hgl, Bool.not_true, Bool.false_eq_true, if_false, hidx]

/-- **C11** `evaluate_binned_cut_by_index` with any integers as indices: it raises IndexError exactly if some valid event has an index outside of `-n ≤ i < n` (`n` rows); otherwise events that are not valid give False, the others are
compared with the row of their index, negative indices counting from the end. -/
theorem C11_any_index {C : Type*} (t : CutTable K C) (op : FV K → C → Bool) (values : List (FV K)) (index : List (ℤ × Bool)) (hlen : values.length = index.length) :
    ((∃ res, evaluateBinnedCutByIndex true values index t op = .ok res) ↔ ∀ e ∈ index, e.2 = true → -(t.cut.length : ℤ) ≤ e.1 ∧ e.1 < t.cut.length) ∧
    (¬ (∀ e ∈ index, e.2 = true → -(t.cut.length : ℤ) ≤ e.1 ∧ e.1 < t.cut.length) → evaluateBinnedCutByIndex true values index t op = .error .indexError) ∧
    ∀ res, evaluateBinnedCutByIndex true values index t op = .ok res → res.length = values.length ∧ ∀ k (hk : k < values.length) (hk' : k < res.length),
      (index[k].2 = false → res[k] = false) ∧
      (index[k].2 = true → ∃ (i : ℕ) (hi : i < t.cut.length), ((i : ℤ) = index[k].1 ∨ (i : ℤ) = index[k].1 + t.cut.length ∧ index[k].1 < 0) ∧ res[k] = op values[k] t.cut[i]) := by
  have one : ∀ (v : FV K) (e : ℤ × Bool),
      (e.2 = false → evalOne t.cut op (v, e) = .ok false) ∧
      (e.2 = true → -(t.cut.length : ℤ) ≤ e.1 ∧ e.1 < t.cut.length → ∃ (i : ℕ) (hi : i < t.cut.length), ((i : ℤ) = e.1 ∨ (i : ℤ) = e.1 + t.cut.length ∧ e.1 < 0) ∧ evalOne t.cut op (v, e) = .ok (op v t.cut[i])) ∧
      (e.2 = true → ¬ (-(t.cut.length : ℤ) ≤ e.1 ∧ e.1 < t.cut.length) → evalOne t.cut op (v, e) = .error .indexError) := by
    rintro v ⟨i, b⟩
    refine ⟨?_, ?_, ?_⟩
    · rintro rfl; simp [evalOne]
    · rintro rfl ⟨h1, h2⟩
      by_cases h0 : 0 ≤ i
      · refine ⟨i.toNat, by omega, Or.inl (Int.toNat_of_nonneg h0), ?_⟩
        simp only [evalOne, npIndex, if_pos h0, if_true]
        rw [List.getElem?_eq_getElem (by omega)]
      · refine ⟨(i + t.cut.length).toNat, by omega, Or.inr ⟨Int.toNat_of_nonneg (by omega), by omega⟩, ?_⟩
        simp only [evalOne, npIndex, if_neg h0, if_pos (show 0 ≤ i + (t.cut.length : ℤ) by omega), if_true]
        rw [List.getElem?_eq_getElem (by omega)]
    · rintro rfl h
      by_cases h0 : 0 ≤ i
      · simp only [evalOne, npIndex, if_pos h0, if_true]
        rw [List.getElem?_eq_none (by omega)]
      · simp only [evalOne, npIndex, if_neg h0, if_true]
        rw [if_neg (by omega)]
  have main : ∀ (vs : List (FV K)) (es : List (ℤ × Bool)), vs.length = es.length →
      ((∀ e ∈ es, e.2 = true → -(t.cut.length : ℤ) ≤ e.1 ∧ e.1 < t.cut.length) → ∃ res, (vs.zip es).mapM (evalOne t.cut op) = .ok res ∧ res.length = vs.length ∧
        ∀ k (hk : k < vs.length) (hk2 : k < es.length) (hk' : k < res.length), evalOne t.cut op (vs[k], es[k]) = .ok res[k]) ∧
      (¬ (∀ e ∈ es, e.2 = true → -(t.cut.length : ℤ) ≤ e.1 ∧ e.1 < t.cut.length) → (vs.zip es).mapM (evalOne t.cut op) = .error .indexError) := by
    intro vs
    induction vs with
    | nil =>
      intro es hl
      have : es = [] := List.length_eq_zero_iff.mp (by simpa using hl.symm)
      subst this
      exact ⟨fun _ => ⟨[], rfl, rfl, fun k hk => absurd hk (by simp)⟩, fun h => absurd (fun e he => absurd he (by simp)) h⟩
    | cons v vs ih =>
      intro es hl
      cases es with
      | nil => simp at hl
      | cons e es =>
        obtain ⟨ih1, ih2⟩ := ih es (by simpa using hl)
        obtain ⟨o1, o2, o3⟩ := one v e
        have hstep : ((v :: vs).zip (e :: es)).mapM (evalOne t.cut op) = (evalOne t.cut op (v, e)).bind fun r => ((vs.zip es).mapM (evalOne t.cut op)).bind fun rs => .ok (r :: rs) := by
          rw [List.zip_cons_cons, List.mapM_cons]; rfl
        constructor
        · intro hall
          have hv : ∃ r, evalOne t.cut op (v, e) = .ok r := by
            cases hb : e.2 with
            | false => exact ⟨_, o1 hb⟩
            | true =>
              obtain ⟨i, hi, _, h⟩ := o2 hb (hall e (by simp) hb)
              exact ⟨_, h⟩
          obtain ⟨r, hr⟩ := hv
          obtain ⟨res, h1, h2, h3⟩ := ih1 (fun e' he' => hall e' (by simp [he']))
          refine ⟨r :: res, ?_, by simp [h2], ?_⟩
          · rw [hstep, hr, h1]; rfl
          · intro k hk hk2 hk'
            cases k with
            | zero => exact hr
            | succ k => exact h3 k (by simpa using hk) (by simpa using hk2) (by simpa using hk')
        · intro hnot
          by_cases hr : e.2 = true → -(t.cut.length : ℤ) ≤ e.1 ∧ e.1 < t.cut.length
          · have hrest : ¬ (∀ e ∈ es, e.2 = true → -(t.cut.length : ℤ) ≤ e.1 ∧ e.1 < t.cut.length) := by
              intro hall
              apply hnot
              intro e' he'
              rcases List.mem_cons.mp he' with rfl | h
              · exact hr
              · exact hall e' h
            have hv : ∃ r, evalOne t.cut op (v, e) = .ok r := by
              cases hb : e.2 with
              | false => exact ⟨_, o1 hb⟩
              | true =>
                obtain ⟨i, hi, _, h⟩ := o2 hb (hr hb)
                exact ⟨_, h⟩
            obtain ⟨r, hr'⟩ := hv
            rw [hstep, hr', ih2 hrest]; rfl
          · push Not at hr
            rw [hstep, o3 hr.1 (fun h => absurd h.2 (not_lt.2 (hr.2 h.1)))]; rfl
  obtain ⟨m1, m2⟩ := main values index hlen
  have heq : evaluateBinnedCutByIndex true values index t op = (values.zip index).mapM (evalOne t.cut op) := rfl
  rw [heq]
  refine ⟨⟨?_, ?_⟩, m2, ?_⟩
  · rintro ⟨res, hres⟩
    by_contra hn
    rw [m2 hn] at hres
    cases hres
  · intro h
    obtain ⟨res, h1, _⟩ := m1 h
    exact ⟨res, h1⟩
  · intro res hres
    have hall : ∀ e ∈ index, e.2 = true → -(t.cut.length : ℤ) ≤ e.1 ∧ e.1 < t.cut.length := by
      by_contra hn
      rw [m2 hn] at hres
      cases hres
    obtain ⟨res', h1, h2, h3⟩ := m1 hall
    rw [h1] at hres
    cases hres
    refine ⟨h2, fun k hk hk' => ?_⟩
    have hk2 : k < index.length := by omega
    have h4 := h3 k hk hk2 hk'
    obtain ⟨o1, o2, _⟩ := one values[k] index[k]
    refine ⟨fun hb => ?_, fun hb => ?_⟩
    · rw [o1 hb] at h4
      exact (Except.ok.inj h4).symm
    · obtain ⟨i, hi, hc, h5⟩ := o2 hb (hall _ (List.getElem_mem hk2) hb)
      rw [h5] at h4
      exact ⟨i, hi, hc, (Except.ok.inj h4).symm⟩

/-! ## C12 -/

/-- **C12** (monotone) With `op = le`, raising cut values never removes an event from the selection; with `op = ge`,
lowering them never does. -/
theorem C12_looser_superset (t t' : CutTable K (FV K)) (h : WellFormed t) (h' : WellFormed t')
    (hlow : t.low = t'.low) (hhigh : t.high = t'.high) (values binValues : List (FV K))
    (hlen : values.length = binValues.length) (op : FV K → FV K → Bool)
    (hop : (op = FV.le ∧ ∀ (i : ℕ) (hi : i < t.cut.length) (hi' : i < t'.cut.length),
        FV.le t.cut[i] t'.cut[i] = true) ∨
      (op = FV.ge ∧ ∀ (i : ℕ) (hi : i < t.cut.length) (hi' : i < t'.cut.length),
        FV.le t'.cut[i] t.cut[i] = true))
    (res res' : List Bool) (hres : evaluateBinnedCut true values binValues t op = .ok res)
    (hres' : evaluateBinnedCut true values binValues t' op = .ok res')
    (k : ℕ) (hk : k < res.length) (hsel : res[k] = true) : ∃ hk' : k < res'.length, res'[k] = true := by
  obtain ⟨r1, e1, l1, s1⟩ := C11_evaluate_binned_cut t h op values binValues hlen
  obtain ⟨r2, e2, l2, s2⟩ := C11_evaluate_binned_cut t' h' op values binValues hlen
  rw [e1] at hres; rw [e2] at hres'
  obtain rfl := Except.ok.inj hres
  obtain rfl := Except.ok.inj hres'
  refine ⟨by omega, ?_⟩
  rw [s2 k (by omega)]
  obtain ⟨i, hi, ⟨a1, a2, a3, a4⟩, a5⟩ := (s1 k (by omega)).mp hsel
  have hi' : i < t'.cut.length := by have := h'.lenCut; have := h.lenCut; rw [← hlow] at *; omega
  refine ⟨i, hi', ⟨by rw [← hlow]; exact a1, by rw [← hhigh]; exact a2, ?_, ?_⟩, ?_⟩
  · simpa only [hlow] using a3
  · simpa only [hhigh] using a4
  · rcases hop with ⟨rfl, hc⟩ | ⟨rfl, hc⟩
    · exact FV.le_trans' a5 (hc i hi hi')
    · exact FV.le_trans' (hc i hi hi') a5

/-- **C12** (locality) The decision for an event depends only on the cut of its own bin: two tables with equal edges
that agree in row `i` decide equally on every event of bin `i`, for every comparison. -/
theorem C12_local {C : Type*} (t t' : CutTable K C) (h : WellFormed t) (h' : WellFormed t')
    (hlow : t.low = t'.low) (hhigh : t.high = t'.high) (op : FV K → C → Bool) (v b : FV K) (i : ℕ)
    (hi : i < t.cut.length) (hi' : i < t'.cut.length) (hcut : t.cut[i] = t'.cut[i]) (hb : RowContains t i b) :
    evaluateBinnedCut true [v] [b] t op = evaluateBinnedCut true [v] [b] t' op := by
  rw [evaluate_eq t h op, evaluate_eq t' h' op]
  simp only [List.zip_cons_cons, List.zip_nil_right, List.map_cons, List.map_nil]
  congr 2
  have hb' : RowContains t' i b := by
    obtain ⟨a1, a2, a3, a4⟩ := hb
    refine ⟨by rw [← hlow]; exact a1, by rw [← hhigh]; exact a2, ?_, ?_⟩
    · simpa only [hlow] using a3
    · simpa only [hhigh] using a4
  rw [Bool.eq_iff_iff, (evalOne_ok t h op v b).2, (evalOne_ok t' h' op v b).2]
  constructor
  · rintro ⟨j, hj, hj2, hop⟩
    have : j = i := inBin_unique (edges_increasing t h) ((inBin_edgesOf t h j b).mpr hj2)
      ((inBin_edgesOf t h i b).mpr hb)
    subst this
    exact ⟨j, hi', hb', hcut ▸ hop⟩
  · rintro ⟨j, hj, hj2, hop⟩
    have : j = i := inBin_unique (edges_increasing t' h') ((inBin_edgesOf t' h' j b).mpr hj2)
      ((inBin_edgesOf t' h' i b).mpr hb')
    subst this
    exact ⟨j, hi, hb, hcut ▸ hop⟩

/-- A concrete two-bin table meets the hypotheses; its evaluation with `le` on five events. -/
example : WellFormed (⟨[.fin 0, .fin 1], [.fin 1, .fin 2], [.fin (1/2), .fin (3/2)], [3, 4], [.fin 10, .fin 20]⟩ :
      CutTable ℚ (FV ℚ)) ∧
    evaluateBinnedCut true [.fin 10, .fin 11, .fin 11, .fin 1, .fin 1] [.fin 0, .fin (1/2), .fin 1, .fin 2, .nan]
      (⟨[.fin 0, .fin 1], [.fin 1, .fin 2], [.fin (1/2), .fin (3/2)], [3, 4], [.fin 10, .fin 20]⟩ :
        CutTable ℚ (FV ℚ)) FV.le = .ok [true, false, true, false, false] := by
  constructor
  · refine ⟨by simp, by simp, by simp, ?_, ⟨by simp, by norm_num [FV.le]⟩, by norm_num [FV.le]⟩
    intro i hi
    simp at hi
    have : i = 0 := by omega
    subst this; rfl
  · decide +kernel

/-! ## C14 -/

/-- Two tables of the same shape. -/
def SameShape (a b : List (List (FV K))) : Prop :=
  ∃ _h : a.length = b.length, ∀ (i : ℕ) (h1 : i < a.length) (h2 : i < b.length), a[i].length = b[i].length

theorem row_any_iff {r s : List (FV K)} (hl : r.length = s.length) :
    (List.zipWith FV.bne r s).any id = false ↔ r = s ∧ ∀ c ∈ r, c ≠ FV.nan := by
  induction r generalizing s with
  | nil => cases s <;> simp_all
  | cons a r ih =>
    cases s with
    | nil => simp at hl
    | cons b s =>
      have := ih (s := s) (by simpa using hl)
      simp only [List.zipWith_cons_cons, List.any_cons, id, Bool.or_eq_false_iff, this]
      have hb : FV.bne a b = false ↔ a = b ∧ a ≠ FV.nan := by
        rw [← FV.beq_iff]; simp [FV.bne]
      rw [hb]
      constructor
      · rintro ⟨⟨rfl, h1⟩, rfl, h2⟩; exact ⟨rfl, by simpa using ⟨h1, h2⟩⟩
      · rintro ⟨h1, h2⟩
        obtain ⟨rfl, rfl⟩ := List.cons.inj h1
        exact ⟨⟨rfl, h2 a (by simp)⟩, rfl, fun c hc => h2 c (by simp [hc])⟩

theorem rowsDiffer_iff {a b : List (List (FV K))} (hs : SameShape a b) :
    (rowsDiffer a b).any id = false ↔ a = b ∧ ∀ r ∈ a, ∀ c ∈ r, c ≠ FV.nan := by
  obtain ⟨hl, hr⟩ := hs
  unfold rowsDiffer
  induction a generalizing b with
  | nil => cases b <;> simp_all
  | cons r a ih =>
    cases b with
    | nil => simp at hl
    | cons s b =>
      have h0 := hr 0 (by simp) (by simp)
      have := ih (b := b) (by simpa using hl) (fun i h1 h2 => by
        have := hr (i+1) (by simpa using h1) (by simpa using h2); simpa using this)
      simp only [List.zipWith_cons_cons, List.any_cons, id, Bool.or_eq_false_iff, this]
      rw [row_any_iff (by simpa using h0)]
      constructor
      · rintro ⟨⟨rfl, h1⟩, rfl, h2⟩
        refine ⟨rfl, ?_⟩
        intro q hq; rcases List.mem_cons.mp hq with rfl | hq
        · exact h1
        · exact h2 q hq
      · rintro ⟨h1, h2⟩
        obtain ⟨rfl, rfl⟩ := List.cons.inj h1
        exact ⟨⟨rfl, h2 r (by simp)⟩, rfl, fun q hq => h2 q (by simp [hq])⟩

/-- **C14** For tables of one common shape, `compare_irf_cuts` is True exactly when there are at most one tables, or all
tables are equal and contain no NaN. -/
theorem C14_compare_irf_cuts (cuts : List (List (List (FV K)))) (hs : ∀ a ∈ cuts, ∀ b ∈ cuts, SameShape a b) :
    compareIrfCuts cuts = true ↔
      cuts.length ≤ 1 ∨ ((∀ a ∈ cuts, ∀ b ∈ cuts, a = b) ∧ ∀ a ∈ cuts, ∀ r ∈ a, ∀ c ∈ r, c ≠ FV.nan) := by
  induction cuts with
  | nil => simp [compareIrfCuts]
  | cons a l ih =>
    cases l with
    | nil => simp [compareIrfCuts]
    | cons b l =>
      have ih' := ih (fun x hx y hy => hs x (by simp [hx]) y (by simp [hy]))
      unfold compareIrfCuts
      have hab := rowsDiffer_iff (hs a (by simp) b (by simp))
      have hlen : ¬ ((a :: b :: l).length ≤ 1) := by simp
      simp only [hlen, false_or]
      by_cases hd : (rowsDiffer a b).any id = true
      · simp only [hd, if_true, Bool.false_eq_true, false_iff]
        rintro ⟨h1, h2⟩
        have := hab.mpr ⟨h1 a (by simp) b (by simp), h2 a (by simp)⟩
        rw [hd] at this; simp at this
      · have hd' : (rowsDiffer a b).any id = false := by simpa using hd
        obtain ⟨rfl, hn⟩ := hab.mp hd'
        simp only [hd, if_false, Bool.false_eq_true]
        rw [ih']
        constructor
        · rintro (h1 | ⟨h1, h2⟩)
          · have hnil : l = [] := by simpa using h1
            subst hnil
            refine ⟨by simp, ?_⟩
            intro x hx; simp at hx; subst hx; exact hn
          · refine ⟨?_, ?_⟩
            · intro x hx y hy
              have hx' : x ∈ a :: l := by simpa using hx
              have hy' : y ∈ a :: l := by simpa using hy
              exact h1 x hx' y hy'
            · intro x hx
              have hx' : x ∈ a :: l := by simpa using hx
              exact h2 x hx'
        · rintro ⟨h1, h2⟩
          right
          exact ⟨fun x hx y hy => h1 x (by simp [hx]) y (by simp [hy]), fun x hx => h2 x (by simp [hx])⟩

/-- Satisfiability and the NaN case: two equal tables compare True, and False as soon as they contain a NaN. -/
example : SameShape ([[.fin 1, .fin 2]] : List (List (FV ℚ))) [[.fin 1, .fin 2]] ∧
    compareIrfCuts ([[[.fin 1, .fin 2]], [[.fin 1, .fin 2]]] : List (List (List (FV ℚ)))) = true ∧
    compareIrfCuts ([[[.fin 1, .nan]], [[.fin 1, .nan]]] : List (List (List (FV ℚ)))) = false := by
  refine ⟨⟨rfl, fun i h1 h2 => rfl⟩, by decide +kernel, by decide +kernel⟩

end Pyirf.Cuts
