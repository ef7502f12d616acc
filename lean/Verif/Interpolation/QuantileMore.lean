import Verif.Interpolation.QuantileProps

/-!
# C96-C98: what the quantile interpolation computes
-/
set_option linter.unusedSectionVars false
set_option linter.unusedSimpArgs false

namespace Pyirf.Interpolation
open Pyirf Pyirf.Np

/-- The density of the interpolated distribution at the lower edges of the bins: its quantiles are the weighted means of the quantiles of the templates. -/
def InterpolatedDensity {N n : ℕ} (norm : Normalization) (edges : Fin (n + 2) → ℝ) (p : Fin N → Fin (n + 1) → ℝ) (weights : List (Fin N × ℝ)) (M : ℕ) (v : Fin (n + 1) → ℝ) : Prop :=
  ∃ P : Fin N → ℝ → ℝ, (∀ e ∈ weights, IsQuantileFunction norm edges (p e.1) (P e.1)) ∧
    ∀ b, DensityAt (fun i : Fin (M + 2) => (weights.map fun e => e.2 * P e.1 (i.val / ((M : ℝ) + 1))).sum) (fun i => i.val / ((M : ℝ) + 1)) (edges b.castSucc) (v b)

theorem normPdf_formula {n : ℕ} {norm : Normalization} {edges : Fin (n + 2) → ℝ} (he : GoodEdges norm edges) (v : Fin (n + 1) → ℝ) (b : Fin (n + 1)) :
    FV.nanToNum0 (normPdf norm edges (fun b => .fin (v b)) b) = .fin (if ∑ b, v b = 0 then 0 else v b / ((∑ b, v b) * binMeasure norm edges b)) := by
  have hw : ∀ b, 0 < binMeasure norm edges b := fun b => by rw [← binWidth_eq]; exact binWidth_pos he b
  unfold normPdf
  rw [fsum_ofFn]
  by_cases hs : ∑ b, v b = 0
  · rw [hs]
    simp [FV.bne, beq_fin, FV.nanToNum0]
  · show FV.nanToNum0 (if FV.bne (.fin (∑ j, v j)) (.fin 0) then FV.fin (v b) / (.fin (∑ j, v j) * .fin (binWidth norm edges b)) else .fin 0) = _
    rw [if_pos (by simp [FV.bne, beq_fin, hs]), FV.fin_mul_fin, binWidth_eq, FV.fin_div_fin _ _ (mul_ne_zero hs (hw b).ne'), if_neg hs]
    rfl

/-- **C96** For templates >= 0 on strictly increasing edges and convex griddata weights on templates that are not empty, every cell of the quantile
interpolation is the density of the distribution whose quantiles are the weighted means of the template quantiles, at the lower edges, divided by the sum of these
densities and by the size of the bin. -/
theorem C96_quantile_formula {N n : ℕ} {C : Type*} {norm : Normalization} {edges : Fin (n + 2) → ℝ} (he : GoodEdges norm edges) (pdf : Fin N → C → Fin (n + 1) → ℝ)
    (hp : ∀ k c b, 0 ≤ pdf k c b) (res : ℝ) (hr0 : res ≠ 0) (M : ℕ) (hr : npRound (1 / res) = M + 2) (l : List (Fin N × ℝ)) (hg : ConvexWeights (some l)) :
    ∃ r, quantileInterpolate norm edges pdf res (some l) = .ok r ∧ ∀ c, (∀ e ∈ l, ∃ b, pdf e.1 c b ≠ 0) → ∃ v, InterpolatedDensity norm edges (fun k => pdf k c) l M v ∧
      (∀ b, 0 ≤ v b) ∧ ∀ b, r c b = .fin (if ∑ b, v b = 0 then 0 else v b / ((∑ b, v b) * binMeasure norm edges b)) := by
  refine ⟨_, quantile_eq he pdf hp res hr0 (by omega) (some l), fun c hne => ?_⟩
  have hM : (npRound (1 / res) - 2).toNat = M := by omega
  obtain ⟨P, v, h1, h2, h3, h4⟩ := quantileCell_formula he (fun k => pdf k c) (hp · c) M hg rfl hne
  refine ⟨v, ⟨P, h1, h3⟩, h2, fun b => ?_⟩
  rw [hM, h4]
  exact normPdf_formula he v b

/-- griddata of a constant -/
theorem griddata_const {N : ℕ} {l : List (Fin N × ℝ)} (hl : ConvexWeights (some l)) {x : FV ℝ} (hx : (∃ y, x = .fin y) ∨ x = .nan) : griddataAt (some l) (fun _ => x) = x := by
  obtain ⟨_, h2⟩ := hl l rfl
  unfold griddataAt
  simp only
  rcases hx with ⟨y, rfl⟩ | rfl
  · have : (l.map fun e => FV.fin e.2 * FV.fin y) = (l.map fun e => e.2 * y).map FV.fin := by rw [List.map_map]; rfl
    rw [this, fsum_fin, List.sum_map_mul_right]
    rw [show (l.map fun e => e.2) = l.map Prod.snd from rfl, h2, one_mul]
  · apply fsum_nan
    rcases l with _ | ⟨a, l⟩
    · simp at h2
    · simp

theorem ppf_fin_or_nan {n : ℕ} {norm : Normalization} {edges : Fin (n + 2) → ℝ} (he : GoodEdges norm edges) {p : Fin (n + 1) → ℝ} (hp : ∀ b, 0 ≤ p b) (q : ℝ) :
    (∃ y, okOr FV.nan (ppfValue (binMid (extEdges edges)) (cdfValues norm (extEdges edges) (extPdf p)) q) = .fin y) ∨
      okOr FV.nan (ppfValue (binMid (extEdges edges)) (cdfValues norm (extEdges edges) (extPdf p)) q) = .nan := by
  by_cases h : ∃ b, p b ≠ 0
  · obtain ⟨P, hP, _⟩ := (extPpf he hp).2 h
    exact Or.inl ⟨P q, by rw [hP]; rfl⟩
  · push Not at h
    right
    rw [(extPpf he hp).1 h]; rfl

/-- **C96** With identical templates the result is the same at every target inside the hull. -/
theorem C96_identical_templates {N n : ℕ} {C : Type*} {norm : Normalization} {edges : Fin (n + 2) → ℝ} (he : GoodEdges norm edges) (p : C → Fin (n + 1) → ℝ)
    (hp : ∀ c b, 0 ≤ p c b) (res : ℝ) (hr0 : res ≠ 0) (hr : 2 ≤ npRound (1 / res)) (l l' : List (Fin N × ℝ)) (hg : ConvexWeights (some l)) (hg' : ConvexWeights (some l')) :
    quantileInterpolate norm edges (fun _ : Fin N => p) res (some l) = quantileInterpolate norm edges (fun _ : Fin N => p) res (some l') := by
  rw [quantile_eq he (fun _ : Fin N => p) (fun _ => hp) res hr0 hr, quantile_eq he (fun _ : Fin N => p) (fun _ => hp) res hr0 hr]
  congr 1
  funext c
  unfold quantileCell
  simp only [griddata_const hg (ppf_fin_or_nan he (hp c) _), griddata_const hg' (ppf_fin_or_nan he (hp c) _)]

/-! ## A concrete case: bins 0..1..3, template with half the content in each bin -/

theorem representative_of_injective {m : ℕ} {F : Fin (m + 1) → ℝ} (h : Function.Injective F) (i : Fin (m + 1)) : Representative F i := by
  by_cases h0 : F i = 0
  · exact Or.inl ⟨h0, fun j hj => (h (hj.trans h0.symm)).le⟩
  · exact Or.inr ⟨h0, fun j hj => (h hj).ge⟩

/-- half of the content in each of the bins 0..1 and 1..3 -/
noncomputable def halfPdf : Fin (1 + 1) → ℝ := ![1 / 2, 1 / 4]

theorem halfPdf_measure : binMeasure .area (![0, 1, 3] : Fin 3 → ℝ) (0 : Fin (1 + 1)) = 1 ∧ binMeasure .area (![0, 1, 3] : Fin 3 → ℝ) (1 : Fin (1 + 1)) = 2 := by
  unfold binMeasure
  simp only [vals013.1, vals013.2.1, vals013.2.2.1, vals013.2.2.2]
  norm_num

theorem halfPdf_integral : pdfIntegral .area (![0, 1, 3] : Fin 3 → ℝ) halfPdf = 1 := by
  unfold pdfIntegral
  rw [sum2, halfPdf_measure.1, halfPdf_measure.2]
  norm_num [halfPdf]

theorem halfPdf_cumulative : cumulative .area (![0, 1, 3] : Fin 3 → ℝ) halfPdf = (![0, 1 / 2, 1] : Fin 3 → ℝ) := by
  funext i
  have h : ∀ b : Fin (1 + 1), contentUpTo .area (![0, 1, 3] : Fin 3 → ℝ) halfPdf b / pdfIntegral .area (![0, 1, 3] : Fin 3 → ℝ) halfPdf = (if b = 0 then 1 / 2 else 1) := by
    intro b
    rw [halfPdf_integral]
    unfold contentUpTo
    rw [sum2, halfPdf_measure.1, halfPdf_measure.2]
    fin_cases b <;> norm_num [halfPdf]
  fin_cases i
  · rfl
  · show contentUpTo .area (![0, 1, 3] : Fin 3 → ℝ) halfPdf 0 / pdfIntegral .area (![0, 1, 3] : Fin 3 → ℝ) halfPdf = 1 / 2
    rw [h]; simp
  · show contentUpTo .area (![0, 1, 3] : Fin 3 → ℝ) halfPdf 1 / pdfIntegral .area (![0, 1, 3] : Fin 3 → ℝ) halfPdf = 1
    rw [h]; simp

theorem halfPdf_quantiles {P : ℝ → ℝ} (h : IsQuantileFunction .area (![0, 1, 3] : Fin 3 → ℝ) halfPdf P) : P 0 = -1 / 2 ∧ P (1 / 2) = 1 / 2 ∧ P 1 = 2 := by
  have hinj : Function.Injective (![0, 1 / 2, 1] : Fin 3 → ℝ) := by
    intro a b hab
    fin_cases a <;> fin_cases b <;> first | rfl | (exfalso; norm_num at hab)
  have hn := h.node
  rw [halfPdf_cumulative] at hn
  have h0 := hn 0 (representative_of_injective hinj 0)
  have h1 := hn 1 (representative_of_injective hinj 1)
  have h2 := hn 2 (representative_of_injective hinj 2)
  have c0 : centers (![0, 1, 3] : Fin 3 → ℝ) 0 = -1 / 2 := by
    show (0 : ℝ) - (1 - 0) / 2 = -1 / 2; norm_num
  have c1 : centers (![0, 1, 3] : Fin 3 → ℝ) 1 = 1 / 2 := by
    show ((0 : ℝ) + 1) / 2 = 1 / 2; norm_num
  have c2 : centers (![0, 1, 3] : Fin 3 → ℝ) 2 = 2 := by
    show ((1 : ℝ) + 3) / 2 = 2; norm_num
  rw [c0] at h0; rw [c1] at h1; rw [c2] at h2
  exact ⟨h0, h1, h2⟩

theorem npRound_int (k : ℤ) : npRound (k : ℝ) = k := by
  unfold npRound
  rw [if_neg (by simp), round_intCast]

/-! ## C97: normalization -/

/-- **C97** (deviation) The result need not be proportional to the interpolated density: every value is also divided by the size of its bin. -/
theorem C97_not_proportional : ∃ (edges : Fin 3 → ℝ) (pdf : Fin 2 → Unit → Fin (1 + 1) → ℝ) (l : List (Fin 2 × ℝ)) (r : Unit → Fin (1 + 1) → FV ℝ) (v : Fin (1 + 1) → ℝ),
    GoodEdges .area edges ∧ (∀ k c b, 0 ≤ pdf k c b) ∧ (∀ k c, pdfIntegral .area edges (pdf k c) = 1) ∧ ConvexWeights (some l) ∧ quantileInterpolate .area edges pdf (1 / 3) (some l) = .ok r ∧
    InterpolatedDensity .area edges (fun k => pdf k ()) l 1 v ∧ ¬ ∃ a : ℝ, ∀ b, r () b = .fin (a * v b) := by
  have hpos : ∀ b, 0 ≤ halfPdf b := by intro b; fin_cases b <;> norm_num [halfPdf]
  have hg : ConvexWeights (some [((0 : Fin 2), (1 : ℝ))]) := by
    intro l hl; obtain rfl : [((0 : Fin 2), (1 : ℝ))] = l := by simpa using hl
    simp
  have hround : npRound (1 / (1 / 3)) = (1 : ℕ) + 2 := by
    have := npRound_int 3
    norm_num at this ⊢
    exact this
  obtain ⟨r, hr, hf⟩ := C96_quantile_formula edges013 (fun (_ : Fin 2) (_ : Unit) => halfPdf) (fun _ _ => hpos) (1 / 3) (by norm_num) 1 hround [((0 : Fin 2), (1 : ℝ))] hg
  obtain ⟨v, hv, hv0, hrv⟩ := hf () (fun _ _ => ⟨0, by norm_num [halfPdf]⟩)
  refine ⟨_, fun _ _ => halfPdf, _, r, v, edges013, fun _ _ => hpos, fun _ _ => halfPdf_integral, hg, hr, hv, ?_⟩
  obtain ⟨P, hP, hd⟩ := hv
  obtain ⟨p0, p1, p2⟩ := halfPdf_quantiles (hP _ (List.mem_singleton.mpr rfl))
  simp only [List.map_cons, List.map_nil, List.sum_cons, List.sum_nil, one_mul, add_zero] at hd
  have v0 : v 0 = 1 / 2 := by
    have h := (hd 0).node 0
    have e0 : ((Fin.castSucc (0 : Fin 2)).val : ℝ) = 0 := by norm_num
    have e1 : ((Fin.succ (0 : Fin 2)).val : ℝ) = 1 := by norm_num
    simp only [e0, e1, vals013.1] at h
    norm_num at h
    rw [p0] at h
    norm_num at p1
    rw [p1] at h
    norm_num at h
    exact h
  have v1 : v 1 = 11 / 30 := by
    have h := (hd 1).linear 0 1 rfl
    have e0 : ((Fin.castSucc (0 : Fin 2)).val : ℝ) = 0 := by norm_num
    have e1 : ((Fin.succ (0 : Fin 2)).val : ℝ) = 1 := by norm_num
    have e2 : ((Fin.castSucc (1 : Fin 2)).val : ℝ) = 1 := by norm_num
    have e3 : ((Fin.succ (1 : Fin 2)).val : ℝ) = 2 := by norm_num
    simp only [e0, e1, e2, e3, vals013.2.1] at h
    norm_num at h
    rw [p0, p2] at h
    norm_num at p1
    rw [p1] at h
    norm_num at h
    exact h
  rintro ⟨a, ha⟩
  have r0 := hrv 0
  have r1 := hrv 1
  rw [ha, sum2, halfPdf_measure.1, v0, v1] at r0
  rw [ha, sum2, halfPdf_measure.2, v0, v1] at r1
  norm_num at r0 r1
  linarith

/-- **C97** Every value is the interpolated density divided by the sum of the interpolated densities and by the size of its bin; so the result is proportional to the
interpolated density exactly if all bins in which that is not 0 have the same size. -/
theorem C97_proportional_iff {N n : ℕ} {C : Type*} {norm : Normalization} {edges : Fin (n + 2) → ℝ} (he : GoodEdges norm edges) (pdf : Fin N → C → Fin (n + 1) → ℝ)
    (hp : ∀ k c b, 0 ≤ pdf k c b) (res : ℝ) (hr0 : res ≠ 0) (M : ℕ) (hr : npRound (1 / res) = M + 2) (l : List (Fin N × ℝ)) (hg : ConvexWeights (some l)) :
    ∃ r, quantileInterpolate norm edges pdf res (some l) = .ok r ∧ ∀ c, (∀ e ∈ l, ∃ b, pdf e.1 c b ≠ 0) → ∃ v, InterpolatedDensity norm edges (fun k => pdf k c) l M v ∧
      (∀ b, 0 ≤ v b) ∧ (∑ b, v b = 0 → ∀ b, r c b = .fin 0) ∧ (∑ b, v b ≠ 0 → ∀ b, r c b = .fin (v b / ((∑ b, v b) * binMeasure norm edges b))) ∧
      ((∃ a : ℝ, ∀ b, r c b = .fin (a * v b)) ↔ ∀ b b', v b ≠ 0 → v b' ≠ 0 → binMeasure norm edges b = binMeasure norm edges b') := by
  obtain ⟨r, hr, hf⟩ := C96_quantile_formula he pdf hp res hr0 M hr l hg
  refine ⟨r, hr, fun c hne => ?_⟩
  obtain ⟨v, hv, h0, hrv⟩ := hf c hne
  have hm : ∀ b, binMeasure norm edges b ≠ 0 := fun b => by rw [← binWidth_eq]; exact (binWidth_pos he b).ne'
  refine ⟨v, hv, h0, fun hz b => by rw [hrv b, if_pos hz], fun hz b => by rw [hrv b, if_neg hz], ?_⟩
  by_cases hz : ∑ b, v b = 0
  · have hv0 : ∀ b, v b = 0 := fun b => (Finset.sum_eq_zero_iff_of_nonneg fun b _ => h0 b).mp hz b (Finset.mem_univ b)
    exact ⟨fun _ b _ h => absurd (hv0 b) h, fun _ => ⟨0, fun b => by rw [hrv b, if_pos hz, zero_mul]⟩⟩
  · constructor
    · rintro ⟨a, ha⟩ b b' hb hb'
      have key : ∀ b, v b ≠ 0 → a * ((∑ b, v b) * binMeasure norm edges b) = 1 := by
        intro b hb
        have := hrv b
        rw [ha b, if_neg hz] at this
        have := FV.fin.inj this
        have hd : (∑ b, v b) * binMeasure norm edges b ≠ 0 := mul_ne_zero hz (hm b)
        rw [eq_div_iff hd] at this
        apply mul_right_cancel₀ hb
        rw [one_mul, mul_right_comm]
        exact this
      have k1 := key b hb
      have k2 := key b' hb'
      have ha0 : a * (∑ b, v b) ≠ 0 := by
        intro h; rw [← mul_assoc, h, zero_mul] at k1; exact zero_ne_one k1
      apply mul_left_cancel₀ ha0
      rw [mul_assoc, mul_assoc, k1, k2]
    · intro h
      obtain ⟨b0, -, hb0⟩ := Finset.exists_ne_zero_of_sum_ne_zero hz
      refine ⟨1 / ((∑ b, v b) * binMeasure norm edges b0), fun b => ?_⟩
      rw [hrv b, if_neg hz]
      congr 1
      by_cases hb : v b = 0
      · rw [hb, zero_div, mul_zero]
      · rw [h b b0 hb hb0]; ring

/-! ## C98: at a grid point -/

theorem filter_lt_card {N : ℕ} {grid : Fin (N + 2) → ℝ} (hs : StrictMono grid) (k : Fin (N + 2)) : (Finset.univ.filter fun i => grid i < grid k).card = k.val := by
  simp only [hs.lt_iff_lt]
  rw [Finset.filter_gt_eq_Iio, Fin.card_Iio]

/-- linear griddata at a grid point: the weight is on that point, and the other one has weight 0 -/
theorem griddata1D_node {N : ℕ} {grid : Fin (N + 2) → ℝ} (hs : StrictMono grid) (k : Fin (N + 2)) :
    ∃ l, griddata1D grid (grid k) = some l ∧ (∀ e ∈ l, e.2 ≠ 0 → e.1 = k) ∧ (∀ e ∈ l, 0 ≤ e.2) ∧ (l.map Prod.snd).sum = 1 := by
  unfold griddata1D
  rw [if_neg (by push Not; exact ⟨hs.monotone (Fin.zero_le k), hs.monotone (Fin.le_last k)⟩)]
  simp only [filter_lt_card hs]
  refine ⟨_, rfl, ?_⟩
  rcases Nat.eq_zero_or_pos k.val with h0 | h0
  · have hlo : (⟨min (max k.val 1) (N + 1) - 1, by omega⟩ : Fin (N + 2)) = k := Fin.ext (by simp [h0])
    rw [hlo]
    simp
  · have hup : (⟨min (max k.val 1) (N + 1), by omega⟩ : Fin (N + 2)) = k := Fin.ext (by have := k.isLt; simp; omega)
    have hlt : grid ⟨min (max k.val 1) (N + 1) - 1, by omega⟩ < grid k := hs (by rw [Fin.lt_def]; simp only; have := k.isLt; omega)
    rw [hup, div_self (sub_pos.mpr hlt).ne']
    simp

/-- the linear griddata of a sorted 1D grid has convex weights that reproduce the target -/
theorem griddata1D_convex {N : ℕ} {grid : Fin (N + 2) → ℝ} (hs : StrictMono grid) (t : ℝ) :
    ConvexWeights (griddata1D grid t) ∧ (griddata1D grid t = none ↔ t < grid 0 ∨ grid (Fin.last _) < t) ∧
    ∀ l, griddata1D grid t = some l → (l.map fun e => e.2 * grid e.1).sum = t := by
  by_cases hout : t < grid 0 ∨ grid (Fin.last _) < t
  · have : griddata1D grid t = none := by unfold griddata1D; rw [if_pos hout]
    rw [this]
    refine ⟨fun l hl => (nomatch hl), by simpa using hout, fun l hl => (nomatch hl)⟩
  have hin := hout
  push Not at hin
  set cnt := (Finset.univ.filter fun i => grid i < t).card with hcnt
  have hbelow : ∀ i : Fin (N + 2), grid i < t ↔ i.val < cnt := by
    intro i
    have hsub : ∀ j : Fin (N + 2), grid j < t → ∀ i ≤ j, grid i < t := fun j hj i hi => (hs.monotone hi).trans_lt hj
    constructor
    · intro hi
      have : (Finset.Iic i) ⊆ Finset.univ.filter fun i => grid i < t := by
        intro j hj; simp only [Finset.mem_filter, Finset.mem_univ, true_and]; exact hsub i hi j (Finset.mem_Iic.mp hj)
      have := Finset.card_le_card this
      rw [Fin.card_Iic] at this
      omega
    · intro hi
      by_contra hc
      have : (Finset.univ.filter fun i => grid i < t) ⊆ Finset.Iio i := by
        intro j hj
        simp only [Finset.mem_filter, Finset.mem_univ, true_and] at hj
        rw [Finset.mem_Iio]
        by_contra hji
        exact hc (hsub j hj i (not_lt.mp hji))
      have := Finset.card_le_card this
      rw [Fin.card_Iio] at this
      omega
  have hlt : grid ⟨min (max cnt 1) (N + 1) - 1, by omega⟩ < grid ⟨min (max cnt 1) (N + 1), by omega⟩ := hs (by rw [Fin.lt_def]; simp only; omega)
  have h1 : grid ⟨min (max cnt 1) (N + 1) - 1, by omega⟩ ≤ t := by
    rcases Nat.eq_zero_or_pos cnt with h0 | h0
    · have : (⟨min (max cnt 1) (N + 1) - 1, by omega⟩ : Fin (N + 2)) = 0 := Fin.ext (by simp [h0])
      rw [this]; exact hin.1
    · refine ((hbelow _).mpr ?_).le
      simp only
      omega
  have h2 : t ≤ grid ⟨min (max cnt 1) (N + 1), by omega⟩ := by
    by_contra hc
    have := (hbelow _).mp (not_le.mp hc)
    simp only at this
    have hN : min (max cnt 1) (N + 1) = N + 1 := by omega
    have hl : (⟨min (max cnt 1) (N + 1), by omega⟩ : Fin (N + 2)) = Fin.last _ := Fin.ext hN
    rw [hl] at hc
    exact hc hin.2
  have hg : griddata1D grid t = some [(⟨min (max cnt 1) (N + 1) - 1, by omega⟩, 1 - (t - grid ⟨min (max cnt 1) (N + 1) - 1, by omega⟩) /
      (grid ⟨min (max cnt 1) (N + 1), by omega⟩ - grid ⟨min (max cnt 1) (N + 1) - 1, by omega⟩)), (⟨min (max cnt 1) (N + 1), by omega⟩,
      (t - grid ⟨min (max cnt 1) (N + 1) - 1, by omega⟩) / (grid ⟨min (max cnt 1) (N + 1), by omega⟩ - grid ⟨min (max cnt 1) (N + 1) - 1, by omega⟩))] := by
    unfold griddata1D; rw [if_neg hout]
  rw [hg]
  set lo := grid ⟨min (max cnt 1) (N + 1) - 1, by omega⟩ with hlo
  set up := grid ⟨min (max cnt 1) (N + 1), by omega⟩ with hup
  have hd : 0 < up - lo := by linarith
  have hq0 : 0 ≤ (t - lo) / (up - lo) := div_nonneg (by linarith) hd.le
  have hq1 : (t - lo) / (up - lo) ≤ 1 := (div_le_one hd).mpr (by linarith)
  refine ⟨fun l hl => ?_, ⟨fun h => (nomatch h), fun h => absurd h hout⟩, fun l hl => ?_⟩
  · rw [Option.some.injEq] at hl
    subst hl
    refine ⟨fun e he => ?_, by simp⟩
    rcases List.mem_cons.mp he with rfl | he
    · simp only; linarith
    · rw [List.mem_singleton.mp he]; exact hq0
  · rw [Option.some.injEq] at hl
    subst hl
    simp only [List.map_cons, List.map_nil, List.sum_cons, List.sum_nil, ← hlo, ← hup]
    field_simp
    ring

/-- **C98** (deviation) At a grid point the result does not only depend on the template of that point: a neighbouring template that is empty in that cell has weight
0, but its quantiles are NaN. -/
theorem C98_depends_on_neighbour : ∃ (edges : Fin 2 → ℝ) (grid : Fin 2 → ℝ) (pdf pdf' : Fin 2 → Unit → Fin (0 + 1) → ℝ) (r r' : Unit → Fin (0 + 1) → FV ℝ),
    GoodEdges .area edges ∧ StrictMono grid ∧ (∀ k c b, 0 ≤ pdf k c b) ∧ (∀ k c b, 0 ≤ pdf' k c b) ∧ pdf 1 = pdf' 1 ∧
    quantileInterpolate .area edges pdf (1 / 2) (griddata1D grid (grid 1)) = .ok r ∧ quantileInterpolate .area edges pdf' (1 / 2) (griddata1D grid (grid 1)) = .ok r' ∧
    pdfIntegral .area edges (pdf 1 ()) = 1 ∧ r () 0 = .fin 1 ∧ r' () 0 = .fin 0 := by
  have he : GoodEdges .area (![0, 1] : Fin 2 → ℝ) := by
    refine ⟨?_, by simp⟩
    rw [Fin.strictMono_iff_lt_succ]
    intro i; fin_cases i; norm_num
  have hs : StrictMono (![0, 1] : Fin (0 + 2) → ℝ) := he.strict
  have hround : npRound (1 / (1 / 2)) = (0 : ℕ) + 2 := by
    have := npRound_int 2
    norm_num at this ⊢
    exact this
  have h1 : ∀ (k : Fin 2) (c : Unit) (b : Fin (0 + 1)), (0 : ℝ) ≤ (fun _ _ _ => 1) k c b := fun _ _ _ => by norm_num
  have h2 : ∀ (k : Fin 2) (c : Unit) (b : Fin (0 + 1)), (0 : ℝ) ≤ (fun k _ _ => (if k = 1 then 1 else 0)) k c b := fun k _ _ => by simp only; split <;> norm_num
  obtain ⟨l, hl, hl1, hl2, hl3⟩ := griddata1D_node hs 1
  have hg := (griddata1D_convex hs ((![0, 1] : Fin (0 + 2) → ℝ) 1)).1
  rw [hl] at hg
  have hlmem : ((0 : Fin 2), (0 : ℝ)) ∈ l := by
    have : griddata1D (![0, 1] : Fin (0 + 2) → ℝ) ((![0, 1] : Fin (0 + 2) → ℝ) 1) = some [((0 : Fin 2), (0 : ℝ)), ((1 : Fin 2), (1 : ℝ))] := by
      unfold griddata1D
      rw [if_neg (by push Not; exact ⟨hs.monotone (Fin.zero_le 1), hs.monotone (Fin.le_last 1)⟩)]
      have := filter_lt_card hs 1
      simp only [this]
      have e1 : (⟨min (max (1 : Fin (0 + 2)).val 1) (0 + 1), by omega⟩ : Fin (0 + 2)) = 1 := rfl
      have e0 : (⟨min (max (1 : Fin (0 + 2)).val 1) (0 + 1) - 1, by omega⟩ : Fin (0 + 2)) = 0 := rfl
      rw [e1, e0]
      norm_num
    rw [this, Option.some.injEq] at hl
    rw [← hl]; simp
  obtain ⟨r, hr, hf⟩ := C96_quantile_formula he _ h1 (1 / 2) (by norm_num) 0 hround l hg
  obtain ⟨r', hr', hf'⟩ := C59_quantile_interpolation he _ h2 (1 / 2) (by norm_num) (by rw [hround]; norm_num) (some l) hg
  have hmeas : binMeasure .area (![0, 1] : Fin 2 → ℝ) (0 : Fin (0 + 1)) = 1 := by
    show (1 : ℝ) - 0 = 1; norm_num
  have hint : pdfIntegral .area (![0, 1] : Fin 2 → ℝ) (fun _ : Fin (0 + 1) => (1 : ℝ)) = 1 := by
    unfold pdfIntegral; simp only [Nat.reduceAdd, Finset.univ_unique, Finset.sum_singleton]
    show 1 * binMeasure .area (![0, 1] : Fin 2 → ℝ) (0 : Fin (0 + 1)) = 1
    rw [hmeas]; norm_num
  refine ⟨_, _, _, _, r, r', he, hs, h1, h2, ?_, by rw [hl]; exact hr, by rw [hl]; exact hr', hint, ?_, ?_⟩
  · funext c b; simp
  · obtain ⟨v, ⟨P, hP, hd⟩, _, hrv⟩ := hf () (fun _ _ => ⟨0, by norm_num⟩)
    have hcum : cumulative .area (![0, 1] : Fin 2 → ℝ) (fun _ : Fin (0 + 1) => (1 : ℝ)) = (![0, 1] : Fin 2 → ℝ) := by
      funext i
      fin_cases i
      · rfl
      · show contentUpTo .area (![0, 1] : Fin 2 → ℝ) (fun _ : Fin (0 + 1) => (1 : ℝ)) (Fin.last 0) / _ = 1
        rw [contentUpTo_last, hint]; norm_num
    have hq : ∀ e ∈ l, P e.1 0 = -1 / 2 ∧ P e.1 1 = 1 / 2 := by
      intro e hel
      have hn := (hP e hel).node
      rw [hcum] at hn
      have a0 := hn 0 (representative_of_injective he.strict.injective 0)
      have a1 := hn 1 (representative_of_injective he.strict.injective 1)
      have c0 : centers (![0, 1] : Fin 2 → ℝ) 0 = -1 / 2 := by
        show (0 : ℝ) - (1 - 0) / 2 = -1 / 2; norm_num
      have c1 : centers (![0, 1] : Fin 2 → ℝ) 1 = 1 / 2 := by
        show ((0 : ℝ) + 1) / 2 = 1 / 2; norm_num
      rw [c0] at a0; rw [c1] at a1
      exact ⟨a0, a1⟩
    have hsum : ∀ a : ℝ, (l.map fun e => e.2 * a).sum = a := by
      intro a
      rw [List.sum_map_mul_right, show (l.map fun e => e.2) = l.map Prod.snd from rfl, hl3, one_mul]
    have hQ0 : (l.map fun e => e.2 * P e.1 0).sum = -1 / 2 := by
      rw [← hsum (-1 / 2)]; congr 1; exact List.map_congr_left fun e hel => by rw [(hq e hel).1]
    have hQ1 : (l.map fun e => e.2 * P e.1 1).sum = 1 / 2 := by
      rw [← hsum (1 / 2)]; congr 1; exact List.map_congr_left fun e hel => by rw [(hq e hel).2]
    have hv : v 0 = 1 := by
      have h := (hd 0).node 0
      have e0 : ((Fin.castSucc (0 : Fin 1)).val : ℝ) / (((0 : ℕ) : ℝ) + 1) = 0 := by norm_num
      have e1 : ((Fin.succ (0 : Fin 1)).val : ℝ) / (((0 : ℕ) : ℝ) + 1) = 1 := by norm_num
      have e2 : (![0, 1] : Fin 2 → ℝ) (Fin.castSucc (0 : Fin 1)) = 0 := rfl
      simp only [e0, e1, hQ0, hQ1] at h
      rw [h (by rw [e2]; norm_num)]
      norm_num
    have hsv : ∑ b, v b = 1 := by simp only [Nat.reduceAdd, Finset.univ_unique, Finset.sum_singleton]; exact hv
    rw [hrv, hsv, hv, hmeas]
    norm_num
  · exact (hf' ()).2 (Or.inr ⟨l, rfl, _, hlmem, fun b => by simp⟩) 0

theorem griddata_single {N n : ℕ} {norm : Normalization} {edges : Fin (n + 2) → ℝ} (he : GoodEdges norm edges) (p : Fin N → Fin (n + 1) → ℝ) (hp : ∀ k b, 0 ≤ p k b)
    {l : List (Fin N × ℝ)} (hne : ∀ e ∈ l, ∃ b, p e.1 b ≠ 0) {k : Fin N} (hnek : ∃ b, p k b ≠ 0) (hl1 : ∀ e ∈ l, e.2 ≠ 0 → e.1 = k) (hl3 : (l.map Prod.snd).sum = 1) (q : ℝ) :
    griddataAt (some l) (fun j => okOr .nan (ppfValue (binMid (extEdges edges)) (cdfValues norm (extEdges edges) (extPdf (p j))) q)) =
      okOr .nan (ppfValue (binMid (extEdges edges)) (cdfValues norm (extEdges edges) (extPdf (p k))) q) := by
  have hP : ∀ j, (∃ b, p j b ≠ 0) → ∃ y, okOr FV.nan (ppfValue (binMid (extEdges edges)) (cdfValues norm (extEdges edges) (extPdf (p j))) q) = .fin y := by
    intro j hj
    obtain ⟨P, hP, _⟩ := (extPpf he (hp j)).2 hj
    exact ⟨P q, by rw [hP]; rfl⟩
  obtain ⟨y, hy⟩ := hP k hnek
  rw [hy]
  unfold griddataAt
  simp only
  have e1 : (l.map fun e => FV.fin e.2 * okOr FV.nan (ppfValue (binMid (extEdges edges)) (cdfValues norm (extEdges edges) (extPdf (p e.1))) q)) =
      (l.map fun e => e.2 * y).map FV.fin := by
    rw [List.map_map]
    apply List.map_congr_left
    intro e hel
    by_cases h0 : e.2 = 0
    · obtain ⟨y', hy'⟩ := hP e.1 (hne e hel)
      rw [hy', h0]
      show FV.fin (0 * y') = FV.fin (e.2 * y)
      rw [h0, zero_mul, zero_mul]
    · rw [hl1 e hel h0, hy]; rfl
  rw [e1, fsum_fin, List.sum_map_mul_right, show (l.map fun e => e.2) = l.map Prod.snd from rfl, hl3, one_mul]

/-- the two points whose templates `griddata` combines at the grid point `k`: the point itself and its lower neighbour (the upper one for the first point) -/
def nodePartner {N : ℕ} (k : Fin (N + 2)) : Fin (N + 2) := if h : k.val = 0 then 1 else ⟨k.val - 1, by omega⟩

theorem griddata1D_node_members {N : ℕ} {grid : Fin (N + 2) → ℝ} (hs : StrictMono grid) (k : Fin (N + 2)) (l : List (Fin (N + 2) × ℝ)) (hl : griddata1D grid (grid k) = some l) :
    (∀ e ∈ l, e.1 = k ∨ e.1 = nodePartner k) ∧ (∃ e ∈ l, e.1 = k) ∧ ∃ e ∈ l, e.1 = nodePartner k := by
  unfold griddata1D at hl
  rw [if_neg (by push Not; exact ⟨hs.monotone (Fin.zero_le k), hs.monotone (Fin.le_last k)⟩)] at hl
  simp only [filter_lt_card hs, Option.some.injEq] at hl
  subst hl
  rcases Nat.eq_zero_or_pos k.val with h0 | h0
  · have hlo : (⟨min (max k.val 1) (N + 1) - 1, by omega⟩ : Fin (N + 2)) = k := Fin.ext (by simp [h0])
    have hup : (⟨min (max k.val 1) (N + 1), by omega⟩ : Fin (N + 2)) = nodePartner k := by
      unfold nodePartner; rw [dif_pos h0]; exact Fin.ext (by simp [h0])
    rw [hlo, hup]
    simp
  · have hup : (⟨min (max k.val 1) (N + 1), by omega⟩ : Fin (N + 2)) = k := Fin.ext (by have := k.isLt; simp; omega)
    have hlo : (⟨min (max k.val 1) (N + 1) - 1, by omega⟩ : Fin (N + 2)) = nodePartner k := by
      unfold nodePartner; rw [dif_neg (by omega)]; exact Fin.ext (by have := k.isLt; simp; omega)
    rw [hlo, hup]
    simp

/-- **C98** At a grid point, the result in a cell only depends on the template of that point, as long as neither this template nor that of the partner (the next lower
grid point; for the lowest point the next higher one) is empty in that cell. If one of them is empty there, the result in that cell is 0. -/
theorem C98_at_grid_point {N n : ℕ} {C : Type*} {norm : Normalization} {edges : Fin (n + 2) → ℝ} (he : GoodEdges norm edges) {grid : Fin (N + 2) → ℝ} (hs : StrictMono grid)
    (pdf pdf' : Fin (N + 2) → C → Fin (n + 1) → ℝ) (hp : ∀ k c b, 0 ≤ pdf k c b) (hp' : ∀ k c b, 0 ≤ pdf' k c b)
    (res : ℝ) (hr0 : res ≠ 0) (hr : 2 ≤ npRound (1 / res)) (k : Fin (N + 2)) :
    ∃ r r', quantileInterpolate norm edges pdf res (griddata1D grid (grid k)) = .ok r ∧ quantileInterpolate norm edges pdf' res (griddata1D grid (grid k)) = .ok r' ∧ ∀ c,
      ((∃ b, pdf k c b ≠ 0) → (∃ b, pdf (nodePartner k) c b ≠ 0) → (∃ b, pdf' k c b ≠ 0) → (∃ b, pdf' (nodePartner k) c b ≠ 0) → pdf k c = pdf' k c → r c = r' c) ∧
      ((∀ b, pdf k c b = 0) ∨ (∀ b, pdf (nodePartner k) c b = 0) → ∀ b, r c b = .fin 0) := by
  obtain ⟨l, hl, hl1, hl2, hl3⟩ := griddata1D_node hs k
  obtain ⟨hm, ⟨e1, he1, hk1⟩, ⟨e2, he2, hk2⟩⟩ := griddata1D_node_members hs k l hl
  have hg := (griddata1D_convex hs (grid k)).1
  have hq := quantile_eq he pdf hp res hr0 hr (some l)
  have hq' := quantile_eq he pdf' hp' res hr0 hr (some l)
  obtain ⟨r0, hr0', hf⟩ := C59_quantile_interpolation he pdf hp res hr0 hr (some l) (hl ▸ hg)
  rw [hl]
  refine ⟨_, _, hq, hq', fun c => ⟨fun a1 a2 b1 b2 hkc => ?_, fun hz b => ?_⟩⟩
  · have h1 := griddata_single he (fun k => pdf k c) (hp · c) (l := l) (k := k) (fun e hel => by rcases hm e hel with h | h <;> rw [h] <;> assumption) a1 hl1 hl3
    have h2 := griddata_single he (fun k => pdf' k c) (hp' · c) (l := l) (k := k) (fun e hel => by rcases hm e hel with h | h <;> rw [h] <;> assumption) b1 hl1 hl3
    simp only [hkc] at h1
    unfold quantileCell
    simp only [h1, h2]
  · have e : r0 = _ := Except.ok.inj (hr0'.symm.trans hq)
    rw [← congrFun (congrFun e c) b]
    refine (hf c).2 (Or.inr ⟨l, rfl, ?_⟩) b
    rcases hz with hz | hz
    · exact ⟨e1, he1, fun b => by rw [hk1]; exact hz b⟩
    · exact ⟨e2, he2, fun b => by rw [hk2]; exact hz b⟩

/-! ## The hypotheses can be met -/

/-- a grid with two points and templates half of whose content is in each bin -/
example : GoodEdges .area (![0, 1, 3] : Fin 3 → ℝ) ∧ (∀ b, 0 ≤ halfPdf b) ∧ (∃ b, halfPdf b ≠ 0) ∧ npRound (1 / (1 / 3)) = (1 : ℕ) + 2 ∧ StrictMono (![0, 1] : Fin (0 + 2) → ℝ) ∧
    ConvexWeights (griddata1D (![0, 1] : Fin (0 + 2) → ℝ) (1 / 4)) ∧ (∃ l, griddata1D (![0, 1] : Fin (0 + 2) → ℝ) (1 / 4) = some l) := by
  have hs : StrictMono (![0, 1] : Fin (0 + 2) → ℝ) := by
    rw [Fin.strictMono_iff_lt_succ]
    intro i; fin_cases i; norm_num
  refine ⟨edges013, fun b => by fin_cases b <;> norm_num [halfPdf], ⟨0, by norm_num [halfPdf]⟩, ?_, hs, (griddata1D_convex hs _).1, ?_⟩
  · have := npRound_int 3
    norm_num at this ⊢
    exact this
  · rcases h : griddata1D (![0, 1] : Fin (0 + 2) → ℝ) (1 / 4) with _ | l
    · rw [(griddata1D_convex hs _).2.1] at h
      rcases h with h | h
      · norm_num at h
      · have e : (![0, 1] : Fin (0 + 2) → ℝ) (Fin.last (0 + 1)) = 1 := rfl
        rw [e] at h; norm_num at h
    · exact ⟨l, rfl⟩

/-- bins of equal size (C97) -/
example : ∀ b : Fin 2, binMeasure .area (![0, 1, 2] : Fin 3 → ℝ) b = 1 := by
  intro b; fin_cases b
  · show (1 : ℝ) - 0 = 1; norm_num
  · show (2 : ℝ) - 1 = 1; norm_num

end Pyirf.Interpolation
