import Verif.Binning.Lemmas

/-!
# Properties C01-C03: bin indices, overflow bins, splitting and joining edges

Specification vocabulary (defined in `Verif/Np/Bins.lean`): `Increasing edges` (no NaN, weakly
increasing), `InBin edges i x` (`edges[i] <= x < edges[i+1]`), `InHistBin` (last bin closed),
`InRange`.
-/
set_option linter.unusedSectionVars false
set_option linter.unusedSimpArgs false

namespace Pyirf.Binning
open Pyirf
variable {K : Type*} [Field K] [LinearOrder K] [IsStrictOrderedRing K]

/-! ## C01 -/

/-- **C01** For increasing edges `calculate_bin_indices` returns one (index, valid) pair per value:
`(i, True)` exactly when `edges[i] <= x < edges[i+1]`, `(-2^63, False)` (UNDERFLOW_INDEX) exactly when
`x < edges[0]`, `(2^63 - 1, False)` (OVERFLOW_INDEX) exactly when `x >= edges[-1]` or `x` is NaN; there is no other
outcome. -/
theorem C01_bin_index (edges data : List (FV K)) (h : Increasing edges) (hl : 0 < edges.length)
    (unit : Bool) :
    ∃ res : List (ℤ × Bool), calculateBinIndices unit unit data edges = .ok res ∧
      ∃ hlen : res.length = data.length, ∀ (k : ℕ) (hk : k < data.length),
        (∀ i : ℕ, res[k] = ((i : ℤ), true) ↔ InBin edges i data[k]) ∧
        (res[k] = (-2 ^ 63, false) ↔ FV.lt data[k] edges[0] = true) ∧
        (res[k] = (2 ^ 63 - 1, false) ↔
          (data[k] = FV.nan ∨ FV.le (edges[edges.length - 1]'(by omega)) data[k] = true)) ∧
        ((∃ i : ℕ, i + 1 < edges.length ∧ res[k] = ((i : ℤ), true)) ∨
          res[k] = (-2 ^ 63, false) ∨ res[k] = (2 ^ 63 - 1, false)) := by
  rw [show ((-2 ^ 63 : ℤ)) = UNDERFLOW_INDEX from rfl, show ((2 ^ 63 - 1 : ℤ)) = OVERFLOW_INDEX from rfl]
  have hu' : (unit && !unit) = false := by cases unit <;> rfl
  refine ⟨_, calculateBinIndices_increasing h data hu', by simp, ?_⟩
  intro k hk
  have hr : (data.map (binIdx edges))[k]'(by simpa using hk) = binIdx edges data[k] := by simp
  rw [hr]
  set x := data[k]
  have hcase := bin_cases h hl x
  refine ⟨fun i => binIdx_inBin h x i, ⟨fun he => ?_, binIdx_underflow h hl x⟩,
    ⟨fun he => ?_, binIdx_overflow h hl x⟩, ?_⟩
  · rcases hcase with hc | ⟨i, hc⟩ | hc
    · exact hc
    · rw [(binIdx_inBin h x i).mpr hc] at he; simp at he
    · rw [binIdx_overflow h hl x hc] at he
      exact absurd (congrArg Prod.fst he).symm underflow_ne_overflow
  · rcases hcase with hc | ⟨i, hc⟩ | hc
    · rw [binIdx_underflow h hl x hc] at he
      exact absurd (congrArg Prod.fst he) underflow_ne_overflow
    · rw [(binIdx_inBin h x i).mpr hc] at he; simp at he
    · exact hc
  · rcases hcase with hc | ⟨i, hc⟩ | hc
    · exact Or.inr (Or.inl (binIdx_underflow h hl x hc))
    · exact Or.inl ⟨i, hc.1, (binIdx_inBin h x i).mpr hc⟩
    · exact Or.inr (Or.inr (binIdx_overflow h hl x hc))

/-- **C01** (sentinels) No array that fits in 64-bit indices has a bin whose number is one of the two
sentinel values, so the index alone tells whether the value was valid. -/
theorem C01_sentinels (edges data : List (FV K)) (h : Increasing edges) (hl : 0 < edges.length)
    (hsize : edges.length ≤ 2 ^ 63) (res : List (ℤ × Bool))
    (hres : calculateBinIndices false false data edges = .ok res) (r : ℤ × Bool) (hr : r ∈ res) :
    r.2 = false ↔ (r.1 = -2 ^ 63 ∨ r.1 = 2 ^ 63 - 1) := by
  rw [show ((-2 ^ 63 : ℤ)) = UNDERFLOW_INDEX from rfl, show ((2 ^ 63 - 1 : ℤ)) = OVERFLOW_INDEX from rfl]
  rw [calculateBinIndices_increasing h data (by simp)] at hres
  obtain rfl := (Except.ok.inj hres)
  obtain ⟨x, -, rfl⟩ := List.mem_map.mp hr
  rcases bin_cases h hl x with hc | ⟨i, hc⟩ | hc
  · rw [binIdx_underflow h hl x hc]; simp
  · rw [(binIdx_inBin h x i).mpr hc]
    have := hc.1
    simp only [UNDERFLOW_INDEX, OVERFLOW_INDEX]
    constructor
    · simp
    · rintro (h1 | h1) <;> norm_num at h1 hsize <;> omega
  · rw [binIdx_overflow h hl x hc]; simp

/-- **C01** (rejection) NaN-free edges that are neither increasing nor decreasing are rejected with
ValueError, whatever the data; a data Quantity with unit-less edges is rejected with TypeError. -/
theorem C01_rejects (edges data : List (FV K)) :
    (∀ unit, (∀ e ∈ edges, e ≠ FV.nan) → ¬ Increasing edges → ¬ Decreasing edges →
      calculateBinIndices unit unit data edges = .error .valueError) ∧
    calculateBinIndices true false data edges = .error .typeError := by
  constructor
  · intro unit hn hi hd
    have hu' : (unit && !unit) = false := by cases unit <;> rfl
    unfold calculateBinIndices
    have : Np.monotonicity edges = 0 := by
      by_contra hc
      rcases monotonicity_ne_zero hn hc with h1 | h1
      · exact hi h1
      · exact hd h1
    rw [hu', this]; simp
  · simp [calculateBinIndices]

/-- The hypotheses of C01 are met by edges `[-inf, 1, 2, 2, inf]`; the code's answers for
NaN, -inf, 1, 2, 5 and inf. -/
example : Increasing ([.ninf, .fin 1, .fin 2, .fin 2, .pinf] : List (FV ℚ)) ∧
    calculateBinIndices false false [.nan, .ninf, .fin 1, .fin 2, .fin 5, .pinf]
      ([.ninf, .fin 1, .fin 2, .fin 2, .pinf] : List (FV ℚ))
    = .ok [(OVERFLOW_INDEX, false), (0, true), (1, true), (3, true), (3, true), (OVERFLOW_INDEX, false)] := by
  constructor
  · constructor
    · simp
    · simp [FV.le]
  · decide +kernel

/-- A non-monotone edge array meets the hypotheses of `C01_rejects`. -/
example : ¬ Increasing ([.fin 1, .fin 3, .fin 2] : List (FV ℚ)) ∧
    ¬ Decreasing ([.fin 1, .fin 3, .fin 2] : List (FV ℚ)) := by
  constructor
  · rintro ⟨-, h⟩; norm_num [FV.le] at h
  · rintro ⟨-, h⟩; norm_num [FV.le] at h

/-! ## C02 -/

/-- The edge `add_overflow_bins` puts in front. -/
def lowerEdge (positive : Bool) : FV K := if positive then .fin 0 else .ninf

/-- **C02** (shape) `add_overflow_bins` keeps the given edges in order and adds at most one edge on each
side: the lower one only if the first edge is above it, `+inf` only if the last edge is below it. The
result is again increasing, and adding overflow bins a second time changes nothing. -/
theorem C02_shape (edges : List (FV K)) (h : Increasing edges) (hl : 0 < edges.length) (positive : Bool) :
    ∃ pre post out, addOverflowBins edges positive = .ok out ∧ out = pre ++ edges ++ post ∧
      pre = (if FV.gt edges[0] (lowerEdge positive) then [lowerEdge positive] else []) ∧
      post = (if edges[edges.length - 1]'(by omega) = FV.pinf then [] else [FV.pinf]) ∧
      Increasing out ∧ addOverflowBins out positive = .ok out := by
  have hlow : lowerEdge (K := K) positive ≠ FV.nan := by unfold lowerEdge; split <;> simp
  cases edges with
  | nil => simp at hl
  | cons b0 rest =>
    have hlastlt : ∀ e : FV K, e ≠ FV.nan → (FV.lt e FV.pinf = true ↔ e ≠ FV.pinf) := by
      intro e he; cases e <;> simp_all [FV.lt]
    set last := (b0 :: rest)[(b0 :: rest).length - 1]'(by simp) with hlastdef
    have hlast_n : last ≠ FV.nan := h.getElem_ne_nan (by simp)
    have hgl : ∀ l : List (FV K), (l ++ b0 :: rest).getLast? = some last := by
      intro l
      rw [List.getLast?_append, List.getLast?_eq_getElem? (l := b0 :: rest)]
      simp [hlastdef]
    set pre : List (FV K) := if FV.gt b0 (lowerEdge positive) then [lowerEdge positive] else [] with hpre
    set post : List (FV K) := if last = FV.pinf then [] else [FV.pinf] with hpost
    have hout : addOverflowBins (b0 :: rest) positive = .ok (pre ++ (b0 :: rest) ++ post) := by
      unfold addOverflowBins
      have e1 : (if FV.gt b0 (if positive = true then FV.fin 0 else FV.ninf) = true then
          (if positive = true then FV.fin 0 else FV.ninf) :: b0 :: rest else b0 :: rest)
          = pre ++ b0 :: rest := by
        simp only [hpre, lowerEdge]
        by_cases hg : FV.gt b0 (if positive = true then FV.fin 0 else FV.ninf) = true
        · simp only [hg, if_true]; rfl
        · simp only [hg]; rfl
      simp only [e1, hgl]
      congr 1
      simp only [Option.map_some, Option.some.injEq, hlastlt last hlast_n, hpost]
      by_cases hp : last = FV.pinf <;> simp [hp]
    have hinc : Increasing (pre ++ (b0 :: rest) ++ post) := by
      constructor
      · intro e he
        simp only [List.mem_append] at he
        rcases he with (he | he) | he
        · simp only [hpre] at he; split at he <;> simp at he; subst he; exact hlow
        · exact h.1 e he
        · simp only [hpost] at he; split at he <;> simp at he; subst he; simp
      · rw [List.pairwise_append, List.pairwise_append]
        refine ⟨⟨?_, h.2, ?_⟩, ?_, ?_⟩
        · simp only [hpre]; split <;> simp
        · intro a ha b hb
          simp only [hpre] at ha
          split at ha
          · rename_i hgt
            simp at ha; subst ha
            obtain ⟨j, hj, rfl⟩ := List.getElem_of_mem hb
            exact FV.le_trans' (FV.le_of_lt' hgt) (h.getElem_le (Nat.zero_le j) hj)
          · simp at ha
        · simp only [hpost]; split <;> simp
        · intro a ha b hb
          simp only [hpost] at hb
          split at hb
          · simp at hb
          · simp at hb; subst hb
            have hne : a ≠ FV.nan := by
              simp only [List.mem_append] at ha
              rcases ha with ha | ha
              · simp only [hpre] at ha; split at ha <;> simp at ha; subst ha; exact hlow
              · exact h.1 a ha
            cases a <;> simp_all [FV.le]
    refine ⟨pre, post, _, hout, rfl, rfl, rfl, hinc, ?_⟩
    -- idempotence
    obtain ⟨c0, crest, hcc⟩ : ∃ c0 crest, pre ++ (b0 :: rest) ++ post = c0 :: crest := by
      simp only [hpre]; split <;> simp
    have hc0 : FV.gt c0 (lowerEdge positive) = false := by
      simp only [hpre] at hcc
      split at hcc
      · simp at hcc; rw [← hcc.1]; exact FV.lt_irrefl' _
      · rename_i hng
        simp at hcc; rw [← hcc.1]; simpa using hng
    have hcl : (c0 :: crest).getLast? = some FV.pinf := by
      rw [← hcc]
      simp only [hpost]
      split
      · rename_i hp; rw [List.append_nil, hgl, hp]
      · rw [List.getLast?_append]; rfl
    rw [hcc]
    unfold addOverflowBins
    have hc0' : FV.gt c0 (if positive = true then FV.fin 0 else FV.ninf) = false := hc0
    simp only [hc0', Bool.false_eq_true, if_false, hcl]
    simp [FV.lt]

/-- **C02** (without sign restriction) After `add_overflow_bins(edges, positive=False)` every finite
value has a valid bin. -/
theorem C02_all_finite_valid (edges out : List (FV K)) (h : Increasing edges) (hl : 0 < edges.length)
    (hout : addOverflowBins edges false = .ok out) (x : K) :
    ∃ i : ℕ, calculateBinIndices false false [FV.fin x] out = .ok [((i : ℤ), true)] := by
  obtain ⟨pre, post, out', h1, h2, h3, h4, hinc, -⟩ := C02_shape edges h hl false
  rw [h1] at hout
  obtain rfl := Except.ok.inj hout
  have hlen : 0 < out'.length := by rw [h2]; simp; omega
  rw [calculateBinIndices_increasing hinc _ (by simp)]
  have hfirst : out'[0] = FV.ninf := by
    by_cases hb : edges[0] = FV.ninf
    · have hp : pre = [] := by rw [h3, hb]; simp [lowerEdge, FV.gt, FV.lt]
      subst hp; subst h2
      simp [List.getElem_append, hl, hb]
    · have hp : pre = [FV.ninf] := by
        rw [h3]; have := h.getElem_ne_nan hl
        cases he : edges[0] <;> simp_all [lowerEdge, FV.gt, FV.lt]
      subst hp; subst h2; simp
  have hlast : out'[out'.length - 1]'(by omega) = FV.pinf := by
    by_cases hb : edges[edges.length - 1]'(by omega) = FV.pinf
    · rw [if_pos hb] at h4; subst h4; subst h2
      simp only [List.append_nil, List.length_append]
      rw [List.getElem_append_right (by omega)]
      rw [← hb]; congr 1; omega
    · rw [if_neg hb] at h4; subst h4; subst h2; simp
  rcases bin_cases hinc hlen (FV.fin x) with hc | ⟨i, hc⟩ | hc
  · rw [hfirst] at hc; simp [FV.lt] at hc
  · exact ⟨i, by simp [(binIdx_inBin hinc _ i).mpr hc]⟩
  · rw [hlast] at hc; simp [FV.le] at hc

/-- **C02** (default, `positive=True`) Every finite value `>= 0` has a valid bin, and if the given edges
are all `>= 0`, every negative finite value is reported as underflow. -/
theorem C02_nonneg_valid (edges out : List (FV K)) (h : Increasing edges) (hl : 0 < edges.length)
    (hout : addOverflowBins edges true = .ok out) :
    (∀ x : K, 0 ≤ x → ∃ i : ℕ, calculateBinIndices false false [FV.fin x] out = .ok [((i : ℤ), true)]) ∧
    ((∀ e ∈ edges, FV.le (.fin 0) e = true) → ∀ x : K, x < 0 →
      calculateBinIndices false false [FV.fin x] out = .ok [(UNDERFLOW_INDEX, false)]) := by
  obtain ⟨pre, post, out', h1, h2, h3, h4, hinc, -⟩ := C02_shape edges h hl true
  rw [h1] at hout
  obtain rfl := Except.ok.inj hout
  have hlen : 0 < out'.length := by rw [h2]; simp; omega
  have hcalc : ∀ x : K, calculateBinIndices false false [FV.fin x] out' = .ok [binIdx out' (FV.fin x)] :=
    fun x => by rw [calculateBinIndices_increasing hinc _ (by simp)]; simp
  have hfirst : FV.le out'[0] (FV.fin 0) = true := by
    by_cases hb : FV.gt edges[0] (FV.fin 0) = true
    · have hp : pre = [FV.fin 0] := by rw [h3]; simp [lowerEdge, hb]
      subst hp; subst h2; simp
    · have hp : pre = [] := by rw [h3]; simp [lowerEdge, hb]
      subst hp; subst h2
      have hb' : FV.lt (FV.fin (0:K)) edges[0] = false := by simpa [FV.gt] using hb
      have e : (([] : List (FV K)) ++ edges ++ post)[0] = edges[0] := by
        simp [List.getElem_append, hl]
      rw [e]
      rcases FV.le_or_lt' (h.getElem_ne_nan hl) (by simp : FV.fin (0:K) ≠ FV.nan) with h5 | h5
      · exact h5
      · rw [hb'] at h5; exact absurd h5 (by simp)
  have hlast : out'[out'.length - 1]'(by omega) = FV.pinf := by
    by_cases hb : edges[edges.length - 1]'(by omega) = FV.pinf
    · rw [if_pos hb] at h4; subst h4; subst h2
      simp only [List.append_nil, List.length_append]
      rw [List.getElem_append_right (by omega)]
      rw [← hb]; congr 1; omega
    · rw [if_neg hb] at h4; subst h4; subst h2; simp
  constructor
  · intro x hx
    rw [hcalc]
    rcases bin_cases hinc hlen (FV.fin x) with hc | ⟨i, hc⟩ | hc
    · have h5 := FV.le_trans' hfirst (show FV.le (FV.fin 0) (FV.fin x) = true by simpa using hx)
      rw [FV.not_lt_of_le h5] at hc; exact absurd hc (by simp)
    · exact ⟨i, by simp [(binIdx_inBin hinc _ i).mpr hc]⟩
    · rw [hlast] at hc; simp [FV.le] at hc
  · intro hpos x hx
    rw [hcalc, binIdx_underflow hinc hlen]
    have h6 : FV.le (FV.fin (0:K)) out'[0] = true := by
      by_cases hb : FV.gt edges[0] (FV.fin 0) = true
      · have hp : pre = [FV.fin 0] := by rw [h3]; simp [lowerEdge, hb]
        subst hp; subst h2; simp
      · have hp : pre = [] := by rw [h3]; simp [lowerEdge, hb]
        subst hp; subst h2
        have e : (([] : List (FV K)) ++ edges ++ post)[0] = edges[0] := by
          simp [List.getElem_append, hl]
        rw [e]; exact hpos _ (List.getElem_mem _)
    exact FV.lt_of_lt_of_le' (show FV.lt (FV.fin x) (FV.fin 0) = true by simpa using hx) h6

/-- **C02** (documented claim refuted) The docstring of `calculate_bin_indices` says that with underflow and
overflow bins every result is a valid index. It is not for `+inf` and NaN, whatever the edges. -/
theorem C02_inf_and_nan_stay_invalid (edges out : List (FV K)) (h : Increasing edges) (hl : 0 < edges.length)
    (positive : Bool) (hout : addOverflowBins edges positive = .ok out) :
    calculateBinIndices false false [FV.pinf, FV.nan] out
      = .ok [(OVERFLOW_INDEX, false), (OVERFLOW_INDEX, false)] := by
  obtain ⟨pre, post, out', h1, h2, h3, h4, hinc, -⟩ := C02_shape edges h hl positive
  rw [h1] at hout
  obtain rfl := Except.ok.inj hout
  have hlen : 0 < out'.length := by rw [h2]; simp; omega
  rw [calculateBinIndices_increasing hinc _ (by simp)]
  have hle : ∀ e : FV K, e ≠ FV.nan → FV.le e FV.pinf = true := by intro e he; cases e <;> simp_all [FV.le]
  have a1 := binIdx_overflow hinc hlen FV.pinf (Or.inr (hle _ (hinc.getElem_ne_nan (by omega))))
  have a2 := binIdx_overflow hinc hlen FV.nan (Or.inl rfl)
  simp [a1, a2]

/-- Concrete run: edges `[1, 2]` get `[0, 1, 2, inf]`. -/
example : addOverflowBins ([.fin 1, .fin 2] : List (FV ℚ)) true = .ok [.fin 0, .fin 1, .fin 2, .pinf] ∧
    addOverflowBins ([.fin 1, .fin 2] : List (FV ℚ)) false = .ok [.ninf, .fin 1, .fin 2, .pinf] ∧
    Increasing ([.fin 1, .fin 2] : List (FV ℚ)) := by
  refine ⟨by decide +kernel, by decide +kernel, by simp, by norm_num [FV.le]⟩

/-! ## C03 -/

/-- `a` and `b` agree within the tolerance `join_bin_lo_hi` uses: finite values with
`|a - b| <= 1e-8 + 1e-5 |b|`, or equal infinities. -/
def Close (a b : FV K) : Prop :=
  (∃ x y : K, a = .fin x ∧ b = .fin y ∧ |x - y| ≤ 1 / 10 ^ 8 + 1 / 10 ^ 5 * |y|) ∨
    (a = b ∧ (a = .pinf ∨ a = .ninf))

theorem isclose_iff (a b : FV K) : Np.isclose (1 / 10 ^ 5) (1 / 10 ^ 8) a b = true ↔ Close a b := by
  unfold Np.isclose Close
  cases a <;> cases b <;> simp [FV.beq, FV.le]

theorem close_self {a : FV K} (ha : a ≠ FV.nan) : Close a a := by
  cases a with
  | nan => exact absurd rfl ha
  | fin x => left; exact ⟨x, x, rfl, rfl, by simp; positivity⟩
  | ninf => right; simp
  | pinf => right; simp

/-- **C03** `join(split(edges)) = edges` for every array of rows of NaN-free edges, any number of rows,
any number (>= 2) of edges. -/
theorem C03_join_split (rows : List (List (FV K))) (hl : ∀ r ∈ rows, 2 ≤ r.length)
    (hn : ∀ r ∈ rows, ∀ e ∈ r, e ≠ FV.nan) :
    joinBinLoHi (splitBinLoHi rows).1 (splitBinLoHi rows).2 = .ok rows := by
  unfold joinBinLoHi splitBinLoHi
  have key : ∀ r ∈ rows, Np.allclose (1 / 10 ^ 5) (1 / 10 ^ 8) r.dropLast.tail r.tail.dropLast = true := by
    intro r hr
    unfold Np.allclose
    rw [List.tail_dropLast, List.all_eq_true]
    intro b hb
    obtain ⟨i, hi, rfl⟩ := List.getElem_of_mem hb
    simp only [List.length_zipWith] at hi
    rw [List.getElem_zipWith, id, isclose_iff]
    exact close_self (hn r hr _ (by simp))
  have h1 : (List.zipWith (fun l h => Np.allclose (1 / 10 ^ 5) (1 / 10 ^ 8) l.tail h.dropLast)
      (rows.map List.dropLast) (rows.map List.tail)).all id = true := by
    rw [List.all_eq_true]
    intro b hb
    obtain ⟨i, hi, rfl⟩ := List.getElem_of_mem hb
    simp only [List.getElem_zipWith, List.getElem_map, id]
    exact key _ (List.getElem_mem _)
  simp only [h1, if_true]
  congr 1
  apply List.ext_getElem
  · simp
  · intro i h2 h3
    simp only [List.getElem_zipWith, List.getElem_map]
    have hr := hl rows[i] (List.getElem_mem _)
    generalize rows[i] = r at hr
    match r, hr with
    | a :: b :: l, _ =>
      have : (a :: b :: l).tail.getLast?.toList = [(a :: b :: l).getLast (by simp)] := by
        simp [List.getLast?_eq_some_getLast, List.getLast_cons]
      rw [this, List.dropLast_append_getLast]

/-- **C03** `join` either raises ValueError – exactly when in some row some `lo[i+1]` and `hi[i]` are not
close – or returns, row by row, the `lo` edges followed by the last `hi` edge. -/
theorem C03_join_spec (lo hi : List (List (FV K))) (hrows : lo.length = hi.length)
    (hlen : ∀ (r : ℕ) (h : r < lo.length), lo[r].length = (hi[r]'(by omega)).length ∧ 1 ≤ lo[r].length) :
    (joinBinLoHi lo hi = .error .valueError ↔
      ∃ (r : ℕ) (h : r < lo.length) (i : ℕ) (hi' : i + 1 < lo[r].length),
        ¬ Close (lo[r][i + 1]) ((hi[r]'(by omega))[i]'(by have := hlen r h; omega))) ∧
    (∀ out, joinBinLoHi lo hi = .ok out → ∃ hol : out.length = lo.length,
      ∀ (r : ℕ) (h : r < lo.length), out[r] = lo[r] ++
        [(hi[r]'(by omega))[lo[r].length - 1]'(by have := hlen r h; omega)]) := by
  have hall : ((List.zipWith (fun l h => Np.allclose (1 / 10 ^ 5) (1 / 10 ^ 8) l.tail h.dropLast) lo hi).all id
      = true) ↔ ∀ (r : ℕ) (h : r < lo.length) (i : ℕ) (hi' : i + 1 < lo[r].length),
        Close (lo[r][i + 1]) ((hi[r]'(by omega))[i]'(by have := hlen r h; omega)) := by
    rw [List.all_eq_true]
    constructor
    · intro hb r h i hi'
      have h1 := hb _ (List.getElem_mem (n := r) (by simp; omega))
      simp only [List.getElem_zipWith, id, Np.allclose, List.all_eq_true] at h1
      have hle := hlen r h
      have h2 := h1 _ (List.getElem_mem (n := i) (by simp; omega))
      simpa only [List.getElem_zipWith, id, isclose_iff, List.getElem_tail, List.getElem_dropLast] using h2
    · intro hc b hb
      obtain ⟨r, hr, rfl⟩ := List.getElem_of_mem hb
      simp only [List.length_zipWith] at hr
      simp only [List.getElem_zipWith, id, Np.allclose, List.all_eq_true]
      intro c hcm
      obtain ⟨i, hi', rfl⟩ := List.getElem_of_mem hcm
      simp only [List.length_zipWith, List.length_tail, List.length_dropLast] at hi'
      have h3 := hc r (by omega) i (by omega)
      simpa only [List.getElem_zipWith, id, isclose_iff, List.getElem_tail, List.getElem_dropLast] using h3
  unfold joinBinLoHi
  by_cases hh : (List.zipWith (fun l h => Np.allclose (1 / 10 ^ 5) (1 / 10 ^ 8) l.tail h.dropLast) lo hi).all id
      = true
  · rw [if_pos hh]
    refine ⟨⟨fun hf => by simp at hf, ?_⟩, ?_⟩
    · rintro ⟨r, h, i, hi', hnc⟩
      exact absurd (hall.mp hh r h i hi') hnc
    · intro out hout
      obtain rfl := Except.ok.inj hout
      refine ⟨by simp; omega, ?_⟩
      intro r h
      simp only [List.getElem_zipWith]
      congr 1
      have hle := hlen r h
      rw [List.getLast?_eq_getElem?]
      rw [List.getElem?_eq_getElem (by omega)]
      simp only [Option.toList_some]
      congr 2
      omega
  · rw [if_neg hh]
    refine ⟨⟨fun _ => ?_, fun _ => rfl⟩, by simp⟩
    by_contra hcon
    apply hh
    rw [hall]
    intro r h i hi'
    by_contra hnc
    exact hcon ⟨r, h, i, hi', hnc⟩

/-- **C03** `split(join(lo, hi)) = (lo, hi)` whenever `lo[1:] == hi[:-1]` exactly. -/
theorem C03_split_join (lo hi : List (List (FV K))) (hrows : lo.length = hi.length)
    (hlen : ∀ (r : ℕ) (h : r < lo.length), lo[r].length = (hi[r]'(by omega)).length ∧ 1 ≤ lo[r].length)
    (hmatch : ∀ (r : ℕ) (h : r < lo.length), lo[r].tail = (hi[r]'(by omega)).dropLast)
    (out : List (List (FV K))) (hout : joinBinLoHi lo hi = .ok out) :
    splitBinLoHi out = (lo, hi) := by
  obtain ⟨hol, hrow⟩ := (C03_join_spec lo hi hrows hlen).2 out hout
  unfold splitBinLoHi
  rw [Prod.mk.injEq]
  constructor
  · apply List.ext_getElem
    · simp [hol]
    · intro r h1 h2
      simp only [List.getElem_map]
      rw [hrow r h2, List.dropLast_concat]
  · apply List.ext_getElem
    · simp [hol]; omega
    · intro r h1 h2
      simp only [List.getElem_map]
      have hlr : r < lo.length := by omega
      have hle := hlen r hlr
      rw [hrow r hlr]
      rw [List.tail_append_of_ne_nil (by intro hc; rw [hc] at hle; simp at hle), hmatch r hlr]
      have hne : hi[r] ≠ [] := by intro hc; have := congrArg List.length hc; rw [List.length_nil] at this; omega
      have : hi[r][lo[r].length - 1]'(by omega) = hi[r].getLast hne := by
        rw [List.getLast_eq_getElem]; congr 1; omega
      rw [this, List.dropLast_append_getLast]

/-- Satisfiability: a two-row example; and joining mismatching edges fails. -/
example : (∀ r ∈ ([[.fin 0, .fin 1, .fin 2], [.ninf, .fin 4, .pinf]] : List (List (FV ℚ))),
      2 ≤ r.length ∧ ∀ e ∈ r, e ≠ FV.nan) ∧
    joinBinLoHi ([[.fin 0, .fin 1]] : List (List (FV ℚ))) [[.fin 1, .fin 2]] = .ok [[.fin 0, .fin 1, .fin 2]] ∧
    joinBinLoHi ([[.fin 0, .fin 1]] : List (List (FV ℚ))) [[.fin (11/10), .fin 2]] = .error .valueError := by
  refine ⟨by simp, by decide +kernel, by decide +kernel⟩

end Pyirf.Binning
