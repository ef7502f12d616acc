import Verif.Bench.BiasProps

/-! # Properties C46, C89: angular resolution -/
set_option linter.unusedSectionVars false
set_option linter.unusedSimpArgs false

namespace Pyirf.Bench
open Pyirf Pyirf.Np Pyirf.Binning Pyirf.Cuts

/-! ## C46 -/

/-- **C46** Contents of the table. For increasing edges and quantiles in [0, 1], and either no events or some event in the bins, the call succeeds. Take the `j`-th requested quantile, and assume no later
one is rounded to the same percentage (then its column is not overwritten, see C89). Its column has a row per bin; `n_events` is the number of
events in the bin. In bins without infinite thetas: an empty bin, or one without a non-NaN theta, has NaN; otherwise the value is that quantile
of the bin's non-NaN thetas. -/
theorem C46_table (t : EnergyType) (qs : List ℝ) (hq : ∀ q ∈ qs, 0 ≤ q ∧ q ≤ 1) (events : List Event) (bins : List (FV ℝ)) (hb : Increasing bins)
    (hl : 0 < bins.length) (hin : EmptyOrInside t bins events) :
    ∃ tab, angularResolution t qs events bins = .ok tab ∧
      ∀ (j : ℕ) (hj : j < qs.length), (∀ j' (_ : j' < qs.length), j < j' → quantileKey qs[j'] ≠ quantileKey qs[j]) →
        tab.low = bins.dropLast ∧ tab.high = bins.tail ∧
        ∃ col, tab.cols (quantileKey qs[j]) = some col ∧ ∃ (hn : tab.nEvents.length = bins.length - 1) (hc : col.length = bins.length - 1),
          ∀ (i : ℕ) (hi : i < bins.length - 1),
            tab.nEvents[i] = (eventsOf t bins i events).length ∧
            (eventsOf t bins i events = [] → col[i] = .nan) ∧
            (NoInf ((eventsOf t bins i events).map Event.theta) → numbers ((eventsOf t bins i events).map Event.theta) = [] → col[i] = .nan) ∧
            (NoInf ((eventsOf t bins i events).map Event.theta) → numbers ((eventsOf t bins i events).map Event.theta) ≠ [] →
              ∃ v, col[i] = .fin v ∧ IsPercentile (numbers ((eventsOf t bins i events).map Event.theta)) (100 * qs[j]) v) := by
  obtain ⟨tab, h1, h2⟩ := angularResolution_eq t qs hq events hb hl hin
  refine ⟨tab, h1, ?_⟩
  intro j hj hlast
  obtain ⟨a1, a2, a3, a4, a5⟩ := h2 j hj hlast
  refine ⟨a1, a2, _, a5, by simp [a4], by simp, ?_⟩
  intro i hi
  have hqj := hq _ (List.getElem_mem hj)
  simp only [a4, List.getElem_map, List.getElem_range, group_thetaPairs, List.map_eq_nil_iff, List.length_map]
  refine ⟨trivial, fun h => by rw [if_pos h], ?_, ?_⟩
  · intro hni h
    rw [pctVal_nan hni h]; simp
  · intro hni h
    have hne : eventsOf t bins i events ≠ [] := by
      intro he; rw [he] at h; exact h rfl
    simp only [hne, if_false]
    obtain ⟨v, e, hv⟩ := pctVal_spec (p := qs[j] * 100) (by linarith) (by linarith) hni h
    exact ⟨v, e, by rw [mul_comm]; exact hv⟩

/-- counting: at least `floor((n-1)*q) + 1` of `n` numbers are not above their `q` quantile, and at least `n - ceil((n-1)*q)` not below -/
theorem isPercentile_count {xs : List ℝ} {q v : ℝ} (hv : IsPercentile xs (100 * q) v) :
    ⌊((xs.length : ℝ) - 1) * q⌋ + 1 ≤ (xs.countP (fun x => decide (x ≤ v)) : ℤ) := by
  obtain ⟨s, s1, s2, i, f, f0, f1, fe, hi, rfl⟩ := hv
  have hfl : ⌊((xs.length : ℝ) - 1) * q⌋ = i := by
    rw [Int.floor_eq_iff]
    rw [show (100 * q / 100 : ℝ) = q by ring] at fe
    push_cast
    constructor <;> linarith
  have hstep : s[i] ≤ s.getD (i + 1) s[i] := by
    rcases Nat.lt_or_ge (i + 1) s.length with h | h
    · simp only [List.getD_eq_getElem?_getD, List.getElem?_eq_getElem h, Option.getD_some]
      exact List.pairwise_iff_getElem.mp s2 i (i + 1) hi h (by omega)
    · simp [List.getD_eq_getElem?_getD, h]
  have hle : s.getD i 0 ≤ s[i] + f * (s.getD (i + 1) s[i] - s[i]) := by
    have : s.getD i 0 = s[i] := by simp [List.getD_eq_getElem?_getD, hi]
    rw [this]; nlinarith
  have := count_le_getD s2 hi hle
  rw [hfl, ← s1.countP_eq]
  exact_mod_cast this

/-- **C46** In each bin whose events all have a finite theta, at least `floor((n-1)*q) + 1` of the `n >= 1` events have theta not above the reported value. -/
theorem C46_contains (t : EnergyType) (qs : List ℝ) (hq : ∀ q ∈ qs, 0 ≤ q ∧ q ≤ 1) (events : List Event) (bins : List (FV ℝ)) (hb : Increasing bins)
    (hl : 0 < bins.length) (hin : EmptyOrInside t bins events) (hfin : ∀ e ∈ events, ∃ x, e.theta = .fin x) :
    ∃ tab, angularResolution t qs events bins = .ok tab ∧
      ∀ (j : ℕ) (hj : j < qs.length), (∀ j' (_ : j' < qs.length), j < j' → quantileKey qs[j'] ≠ quantileKey qs[j]) →
        ∃ col, tab.cols (quantileKey qs[j]) = some col ∧ ∃ (hc : col.length = bins.length - 1),
          ∀ (i : ℕ) (hi : i < bins.length - 1), eventsOf t bins i events ≠ [] →
            ⌊(((eventsOf t bins i events).length : ℝ) - 1) * qs[j]⌋ + 1 ≤
              ((eventsOf t bins i events).countP (fun e => FV.le e.theta col[i]) : ℤ) := by
  obtain ⟨tab, h1, h2⟩ := C46_table t qs hq events bins hb hl hin
  refine ⟨tab, h1, ?_⟩
  intro j hj hlast
  obtain ⟨-, -, col, h3, hn, hc, h4⟩ := h2 j hj hlast
  refine ⟨col, h3, hc, ?_⟩
  intro i hi hne
  obtain ⟨-, -, -, h5⟩ := h4 i hi
  set l := eventsOf t bins i events with hl'
  have hf : ∀ e ∈ l, ∃ x, e.theta = .fin x := fun e he => hfin e (List.mem_of_mem_filter he)
  have hlen : (numbers (l.map Event.theta)).length = l.length ∧ ∀ v, (numbers (l.map Event.theta)).countP (fun x => decide (x ≤ v)) =
      l.countP (fun e => FV.le e.theta (.fin v)) := by
    revert hf
    generalize l = m
    intro hf
    induction m with
    | nil => exact ⟨rfl, fun _ => rfl⟩
    | cons e m ih =>
      obtain ⟨i1, i2⟩ := ih (fun x hx => hf x (List.mem_cons_of_mem _ hx))
      obtain ⟨x, hx⟩ := hf e (by simp)
      have hcons : numbers ((e :: m).map Event.theta) = x :: numbers (m.map Event.theta) := by
        unfold numbers
        simp [hx]
      rw [hcons]
      refine ⟨by simp [i1], fun v => ?_⟩
      rw [List.countP_cons, List.countP_cons, i2 v, hx]
      simp
  have hnum : numbers (l.map Event.theta) ≠ [] := by
    intro h
    rw [h] at hlen
    exact hne (List.length_eq_zero_iff.mp hlen.1.symm)
  obtain ⟨v, e, hv⟩ := h5 (by
    intro v hv
    obtain ⟨e, he, rfl⟩ := List.mem_map.mp hv
    obtain ⟨x, hx⟩ := hf e he
    rw [hx]; simp) hnum
  have := isPercentile_count hv
  rw [e, ← hlen.2 v, ← hlen.1]
  exact this

/-- **C46** Of two requested quantiles the larger one has the larger (or equal) value, in every bin with at least one non-NaN and no infinite theta. -/
theorem C46_monotone (t : EnergyType) (qs : List ℝ) (hq : ∀ q ∈ qs, 0 ≤ q ∧ q ≤ 1) (events : List Event) (bins : List (FV ℝ)) (hb : Increasing bins)
    (hl : 0 < bins.length) (hin : EmptyOrInside t bins events) (j k : ℕ) (hj : j < qs.length) (hk : k < qs.length) (hjk : qs[j] ≤ qs[k])
    (hlj : ∀ j' (_ : j' < qs.length), j < j' → quantileKey qs[j'] ≠ quantileKey qs[j])
    (hlk : ∀ j' (_ : j' < qs.length), k < j' → quantileKey qs[j'] ≠ quantileKey qs[k]) :
    ∃ tab cj ck, angularResolution t qs events bins = .ok tab ∧ tab.cols (quantileKey qs[j]) = some cj ∧ tab.cols (quantileKey qs[k]) = some ck ∧
      ∀ (i : ℕ), i < bins.length - 1 → NoInf ((eventsOf t bins i events).map Event.theta) → numbers ((eventsOf t bins i events).map Event.theta) ≠ [] →
        ∃ v w, cj[i]? = some (.fin v) ∧ ck[i]? = some (.fin w) ∧ v ≤ w := by
  obtain ⟨tab, h1, h2⟩ := C46_table t qs hq events bins hb hl hin
  obtain ⟨-, -, cj, a3, an, ac, a4⟩ := h2 j hj hlj
  obtain ⟨-, -, ck, b3, bn, bc, b4⟩ := h2 k hk hlk
  refine ⟨tab, cj, ck, h1, a3, b3, ?_⟩
  intro i hi hni hne
  obtain ⟨v, e, hv⟩ := (a4 i hi).2.2.2 hni hne
  obtain ⟨w, e', hw⟩ := (b4 i hi).2.2.2 hni hne
  refine ⟨v, w, by rw [List.getElem?_eq_getElem (by omega), e], by rw [List.getElem?_eq_getElem (by omega), e'], ?_⟩
  exact isPercentile_mono (by have := (hq _ (List.getElem_mem hj)).1; linarith) (by linarith)
    (by have := (hq _ (List.getElem_mem hk)).2; linarith) hne hv hw

/-- **C46** No events: a row per bin, `n_events` 0 and NaN in every requested column (increasing edges). -/
theorem C46_empty_table (t : EnergyType) (qs : List ℝ) (bins : List (FV ℝ)) (hb : Increasing bins) :
    ∃ tab, angularResolution t qs [] bins = .ok tab ∧ tab.nEvents = List.replicate (bins.length - 1) 0 ∧
      ∀ q ∈ qs, tab.cols (quantileKey q) = some (List.replicate (bins.length - 1) .nan) := by
  unfold angularResolution
  rw [calculateBinIndices_increasing hb _ (by simp)]
  simp only [if_true]
  exact ⟨_, rfl, rfl, fun q hq => initCols _ _ _ (List.mem_map_of_mem hq) _⟩

/-- **C46** (deviation) Events of which none lies in the bins are not treated like no events: the call raises IndexError (increasing edges). -/
theorem C46_none_in_bins (t : EnergyType) (qs : List ℝ) (events : List Event) (bins : List (FV ℝ)) (hb : Increasing bins) (hl : 0 < bins.length)
    (hne : events ≠ []) (hout : ∀ i, eventsOf t bins i events = []) : angularResolution t qs events bins = .error .indexError := by
  refine angularResolution_none t qs events hb hl hne ?_
  rintro ⟨e, he, i, hi⟩
  have : e ∈ eventsOf t bins i events := List.mem_filter.mpr ⟨he, decide_eq_true hi⟩
  rw [hout i] at this
  exact absurd this (by simp)

/-! ## C89 -/

/-- The claim of **C89**: every requested quantile can be read from the table: the column named after it holds this quantile of the thetas of each bin. -/
def EachQuantileReported : Prop :=
  ∀ (t : EnergyType) (qs : List ℝ) (_ : ∀ q ∈ qs, 0 ≤ q ∧ q ≤ 1) (events : List Event) (bins : List (FV ℝ)) (_ : Increasing bins) (_ : 0 < bins.length) (_ : EmptyOrInside t bins events),
    ∃ tab, angularResolution t qs events bins = .ok tab ∧
      ∀ (j : ℕ) (hj : j < qs.length), ∃ col, tab.cols (quantileKey qs[j]) = some col ∧
        ∀ (i : ℕ), i < bins.length - 1 → NoInf ((eventsOf t bins i events).map Event.theta) → numbers ((eventsOf t bins i events).map Event.theta) ≠ [] →
          ∃ v, col[i]? = some (.fin v) ∧ IsPercentile (numbers ((eventsOf t bins i events).map Event.theta)) (100 * qs[j]) v

/-- **C89** A column holds, in each bin, the quantile of the *last* requested value whose percentage is rounded to the number in the column's name. -/
theorem C89_column (t : EnergyType) (qs : List ℝ) (hq : ∀ q ∈ qs, 0 ≤ q ∧ q ≤ 1) (events : List Event)
    (bins : List (FV ℝ)) (hb : Increasing bins) (hl : 0 < bins.length) (hin : EmptyOrInside t bins events) :
    ∃ tab, angularResolution t qs events bins = .ok tab ∧
      ∀ (j : ℕ) (hj : j < qs.length), ∃ (j' : ℕ) (hj' : j' < qs.length), j ≤ j' ∧ quantileKey qs[j'] = quantileKey qs[j] ∧
        (∀ k (_ : k < qs.length), j' < k → quantileKey qs[k] ≠ quantileKey qs[j]) ∧
        ∃ col, tab.cols (quantileKey qs[j]) = some col ∧
        ∀ (i : ℕ), i < bins.length - 1 → NoInf ((eventsOf t bins i events).map Event.theta) → numbers ((eventsOf t bins i events).map Event.theta) ≠ [] →
          ∃ v, col[i]? = some (.fin v) ∧ IsPercentile (numbers ((eventsOf t bins i events).map Event.theta)) (100 * qs[j']) v := by
  obtain ⟨tab, h1, h2⟩ := C46_table t qs hq events bins hb hl hin
  refine ⟨tab, h1, ?_⟩
  intro j hj
  have hex : ∃ (j' : ℕ) (hj' : j' < qs.length), j ≤ j' ∧ quantileKey qs[j'] = quantileKey qs[j] ∧
      ∀ k (_ : k < qs.length), j' < k → quantileKey qs[k] ≠ quantileKey qs[j] := by
    classical
    let F := (Finset.range qs.length).filter (fun k => ∃ h : k < qs.length, quantileKey qs[k] = quantileKey qs[j])
    have hF : j ∈ F := Finset.mem_filter.mpr ⟨Finset.mem_range.mpr hj, hj, rfl⟩
    have hmem := Finset.max'_mem F ⟨j, hF⟩
    have hm2 := hmem
    simp only [F, Finset.mem_filter, Finset.mem_range] at hm2
    obtain ⟨-, hlt, hkey⟩ := hm2
    refine ⟨F.max' ⟨j, hF⟩, hlt, Finset.le_max' F j hF, hkey, ?_⟩
    intro k hk hlt' hkk
    have : k ∈ F := by simp only [F, Finset.mem_filter, Finset.mem_range]; exact ⟨hk, hk, hkk⟩
    have := Finset.le_max' F k this
    omega
  obtain ⟨j', hj', hle, hkey, hlast⟩ := hex
  obtain ⟨-, -, col, a3, an, ac, a4⟩ := h2 j' hj' (fun k hk hlt h => hlast k hk hlt (h.trans hkey))
  refine ⟨j', hj', hle, hkey, hlast, col, hkey ▸ a3, ?_⟩
  intro i hi hni hne
  obtain ⟨v, e, hv⟩ := (a4 i hi).2.2.2 hni hne
  exact ⟨v, by rw [List.getElem?_eq_getElem (by omega), e], hv⟩

theorem isPercentile_pair {q v : ℝ} (h0 : 0 ≤ q) (h1 : q ≤ 1) (hv : IsPercentile [0, 1] (100 * q) v) : v = q := by
  rcases h1.lt_or_eq with h1 | h1
  · have h : IsPercentile [0, 1] (100 * q) q := by
      refine ⟨[0, 1], List.Perm.refl _, by simp, 0, q, h0, h1, ?_, by simp, by simp⟩
      simp; ring
    exact isPercentile_unique hv h
  · subst h1
    have h : IsPercentile [0, 1] (100 * 1) (1:ℝ) := by
      refine ⟨[0, 1], List.Perm.refl _, by simp, 1, 0, le_rfl, one_pos, ?_, by simp, by simp⟩
      simp; norm_num
    exact isPercentile_unique hv h

/-- **C89** For requested quantiles in [0, 1]: each of them can be read from the column named after it, whatever the events and bins, exactly if requested quantiles
that are rounded to the same percentage are equal. -/
theorem C89_each_quantile_iff (t : EnergyType) (qs : List ℝ) (hq : ∀ q ∈ qs, 0 ≤ q ∧ q ≤ 1) :
    (∀ (events : List Event) (bins : List (FV ℝ)) (_ : Increasing bins) (_ : 0 < bins.length) (_ : EmptyOrInside t bins events),
      ∃ tab, angularResolution t qs events bins = .ok tab ∧
      ∀ (j : ℕ) (hj : j < qs.length), ∃ col, tab.cols (quantileKey qs[j]) = some col ∧
        ∀ (i : ℕ), i < bins.length - 1 → NoInf ((eventsOf t bins i events).map Event.theta) → numbers ((eventsOf t bins i events).map Event.theta) ≠ [] →
          ∃ v, col[i]? = some (.fin v) ∧ IsPercentile (numbers ((eventsOf t bins i events).map Event.theta)) (100 * qs[j]) v) ↔
    ∀ q ∈ qs, ∀ q' ∈ qs, quantileKey q = quantileKey q' → q = q' := by
  constructor
  · intro H q h q' h' hkey
    obtain ⟨j, hj, rfl⟩ := List.getElem_of_mem h
    obtain ⟨j', hj', rfl⟩ := List.getElem_of_mem h'
    obtain ⟨tab, h1, h2⟩ := H [⟨.fin 1, .fin 1, .fin 0⟩, ⟨.fin 1, .fin 1, .fin 1⟩] [.fin 0, .fin 2] (by
      unfold Increasing
      exact ⟨by simp, by simp⟩) (by simp)
      (Or.inr ⟨_, List.mem_cons_self, 0, by simp, by cases t <;> simp [Event.energy], by cases t <;> simp [Event.energy]⟩)
    have hnum : numbers ((eventsOf t [.fin 0, .fin 2] 0 [⟨.fin 1, .fin 1, .fin 0⟩, ⟨.fin 1, .fin 1, .fin 1⟩]).map Event.theta) = [0, 1] := by
      cases t <;> simp [eventsOf, InBin, Event.energy, numbers]
    have hni : NoInf ((eventsOf t [.fin 0, .fin 2] 0 [⟨.fin 1, .fin 1, .fin 0⟩, ⟨.fin 1, .fin 1, .fin 1⟩]).map Event.theta) := by
      cases t <;> simp [eventsOf, InBin, Event.energy, NoInf]
    obtain ⟨c0, e0, p0⟩ := h2 j hj
    obtain ⟨c1, e1, p1⟩ := h2 j' hj'
    obtain ⟨v0, g0, q0⟩ := p0 0 (by simp) hni (by rw [hnum]; simp)
    obtain ⟨v1, g1, q1⟩ := p1 0 (by simp) hni (by rw [hnum]; simp)
    rw [hkey] at e0
    have hc : c0 = c1 := Option.some.inj (e0.symm.trans e1)
    subst hc
    have hv : v0 = v1 := by
      have := g0.symm.trans g1
      simpa using this
    rw [hnum] at q0 q1
    rw [← isPercentile_pair (hq _ h).1 (hq _ h).2 q0, ← isPercentile_pair (hq _ h').1 (hq _ h').2 q1, hv]
  · intro hinj events bins hb hl hin
    obtain ⟨tab, h1, h2⟩ := C89_column t qs hq events bins hb hl hin
    refine ⟨tab, h1, fun j hj => ?_⟩
    obtain ⟨j', hj', -, hkey, -, col, hc, hv⟩ := h2 j hj
    refine ⟨col, hc, ?_⟩
    rw [← hinj _ (List.getElem_mem hj') _ (List.getElem_mem hj) hkey]
    exact hv

/-- **C89** The column of the quantile `q` is named after the percentage `100 q` rounded to the nearest integer, a tie going to the even neighbour. -/
theorem C89_column_name (q : ℝ) (k : ℤ) :
    quantileKey q = k ↔ |q * 100 - k| < 1 / 2 ∨ (|q * 100 - k| = 1 / 2 ∧ Even k) := by
  unfold quantileKey roundHalfEven
  generalize q * 100 = x
  have h0 := Int.floor_le x
  have h1 := Int.lt_floor_add_one x
  generalize ⌊x⌋ = f at h0 h1 ⊢
  have nearest : ∀ (a : ℤ), |x - a| < 1 / 2 → |x - k| < 1 / 2 ∨ (|x - k| = 1 / 2 ∧ Even k) → a = k := by
    intro a ha hk
    have hk' : |x - k| ≤ 1 / 2 := by
      rcases hk with h | h
      · exact h.le
      · exact h.1.le
    have : |((a - k : ℤ) : ℝ)| < 1 := by
      push_cast
      have := abs_sub_abs_le_abs_sub (x - k) (x - a)
      have e : (a:ℝ) - k = (x - k) - (x - a) := by ring
      rw [e]
      have := abs_sub (x - k) (x - a)
      linarith
    rw [← Int.cast_abs] at this
    have : |a - k| < 1 := by exact_mod_cast this
    have := Int.abs_lt_one_iff.mp this
    omega
  split_ifs with c1 c2 c3
  · constructor
    · rintro rfl; left; rw [abs_of_nonneg (by linarith)]; exact c1
    · exact nearest f (by rw [abs_of_nonneg (by linarith)]; exact c1)
  · have hlt : |x - ((f + 1 : ℤ) : ℝ)| < 1 / 2 := by push_cast; rw [abs_of_nonpos (by linarith)]; linarith
    constructor
    · rintro rfl; exact Or.inl hlt
    · exact nearest _ hlt
  all_goals
    have hx : x = f + 1 / 2 := by linarith
    have tie : |x - k| < 1 / 2 ∨ (|x - k| = 1 / 2 ∧ Even k) ↔ (k = f ∨ k = f + 1) ∧ Even k := by
      constructor
      · rintro (h | ⟨h, he⟩)
        · rw [hx, abs_lt] at h
          have a1 : f < k := by have : (f:ℝ) < k := by linarith [h.2]
                                exact_mod_cast this
          have a2 : k < f + 1 := by have : (k:ℝ) < f + 1 := by linarith [h.1]
                                    exact_mod_cast this
          omega
        · refine ⟨?_, he⟩
          rw [hx] at h
          rcases abs_cases ((f:ℝ) + 1 / 2 - k) with ⟨e, -⟩ | ⟨e, -⟩
          · left; have : (k:ℝ) = f := by linarith
            exact_mod_cast this
          · right; have : (k:ℝ) = f + 1 := by linarith
            exact_mod_cast this
      · rintro ⟨rfl | rfl, he⟩ <;> refine Or.inr ⟨?_, he⟩ <;> rw [hx]
        · rw [abs_of_nonneg] <;> linarith
        · push_cast; rw [abs_of_nonpos] <;> linarith
    rw [tie]
  · constructor
    · rintro rfl; exact ⟨Or.inl rfl, c3⟩
    · rintro ⟨rfl | rfl, he⟩
      · rfl
      · exact absurd he (by rw [Int.not_even_iff_odd]; exact c3.add_one)
  · constructor
    · rintro rfl; exact ⟨Or.inr rfl, (Int.not_even_iff_odd.mp c3).add_one⟩
    · rintro ⟨rfl | rfl, he⟩
      · exact absurd he c3
      · rfl

/-- **C89** (deviation) Not every requested quantile is reported: the quantiles 0.501 and 0.502 share the column `angular_resolution_50`, which holds the second one. -/
theorem C89_not_each_quantile : ¬ EachQuantileReported := by
  intro H
  obtain ⟨tab, h1, h2⟩ := H .true [0.501, 0.502] (by intro q hq; simp at hq; rcases hq with rfl | rfl <;> norm_num)
    [⟨.fin 1, .fin 1, .fin 0⟩, ⟨.fin 1, .fin 1, .fin 1⟩] [.fin 0, .fin 2] (by
      unfold Increasing
      exact ⟨by simp, by simp⟩) (by simp)
    (Or.inr ⟨_, List.mem_cons_self, 0, by simp, by simp [Event.energy], by simp [Event.energy]⟩)
  have hf1 : ⌊(0.501 : ℝ) * 100⌋ = 50 := by rw [Int.floor_eq_iff]; norm_num
  have hf2 : ⌊(0.502 : ℝ) * 100⌋ = 50 := by rw [Int.floor_eq_iff]; norm_num
  have hk1 : quantileKey 0.501 = 50 := by
    unfold quantileKey roundHalfEven
    rw [hf1]
    norm_num
  have hk2 : quantileKey 0.502 = 50 := by
    unfold quantileKey roundHalfEven
    rw [hf2]
    norm_num
  have hnum : numbers ((eventsOf .true [.fin 0, .fin 2] 0 [⟨.fin 1, .fin 1, .fin 0⟩, ⟨.fin 1, .fin 1, .fin 1⟩]).map Event.theta) = [0, 1] := by
    simp [eventsOf, InBin, Event.energy, numbers]
  have hni : NoInf ((eventsOf .true [.fin 0, .fin 2] 0 [⟨.fin 1, .fin 1, .fin 0⟩, ⟨.fin 1, .fin 1, .fin 1⟩]).map Event.theta) := by
    simp [eventsOf, InBin, Event.energy, NoInf]
  obtain ⟨c0, e0, p0⟩ := h2 0 (by simp)
  obtain ⟨c1, e1, p1⟩ := h2 1 (by simp)
  obtain ⟨v0, g0, q0⟩ := p0 0 (by simp) hni (by rw [hnum]; simp)
  obtain ⟨v1, g1, q1⟩ := p1 0 (by simp) hni (by rw [hnum]; simp)
  simp only [List.getElem_cons_zero, List.getElem_cons_succ, hk1, hk2] at e0 e1
  have hc : c0 = c1 := Option.some.inj (e0.symm.trans e1)
  subst hc
  have hv : v0 = v1 := by
    have := g0.symm.trans g1
    simpa using this
  rw [hnum] at q0 q1
  simp only [List.getElem_cons_zero, List.getElem_cons_succ] at q0 q1
  have r0 := isPercentile_pair (by norm_num) (by norm_num) q0
  have r1 := isPercentile_pair (by norm_num) (by norm_num) q1
  rw [r0, r1] at hv
  norm_num at hv

/-! ## The hypotheses are satisfiable -/

example : (∀ q ∈ [(0.25 : ℝ), 0.75], 0 ≤ q ∧ q ≤ 1) ∧ ([(0.25 : ℝ), 0.75].map quantileKey).Nodup ∧ (∀ e ∈ evs3, ∃ x, e.theta = .fin x) ∧
    numbers ((eventsOf .true bins2 0 evs3).map Event.theta) = [1, 2] := by
  have hf1 : ⌊(0.25 : ℝ) * 100⌋ = 25 := by rw [Int.floor_eq_iff]; norm_num
  have hf2 : ⌊(0.75 : ℝ) * 100⌋ = 75 := by rw [Int.floor_eq_iff]; norm_num
  have hk1 : quantileKey 0.25 = 25 := by unfold quantileKey roundHalfEven; rw [hf1]; norm_num
  have hk2 : quantileKey 0.75 = 75 := by unfold quantileKey roundHalfEven; rw [hf2]; norm_num
  refine ⟨by intro q hq; simp at hq; rcases hq with rfl | rfl <;> norm_num, by simp [hk1, hk2], ?_, ?_⟩
  · intro e he
    simp only [evs3, List.mem_cons, List.not_mem_nil, or_false] at he
    rcases he with rfl | rfl | rfl <;> simp
  · have : ¬ (1 : ℝ) ≤ 1 / 2 := by norm_num
    simp [eventsOf, evs3, bins2, InBin, Event.energy, numbers]
    norm_num
    rfl

end Pyirf.Bench
