import Verif.Interpolation.QuantileModel
import Verif.Interpolation.MorphProps
import Verif.Bench.DispProps

/-!
# C58, C59, C96, C97: quantile interpolation
-/
set_option linter.unusedSectionVars false
set_option linter.unusedSimpArgs false

namespace Pyirf.Interpolation
open Pyirf Pyirf.Np
open scoped Real

/-! ## C58: cumulative distributions -/

/-- The content of the bins up to `b`. -/
noncomputable def contentUpTo {m : ℕ} (norm : Normalization) (edges : Fin (m + 2) → ℝ) (p : Fin (m + 1) → ℝ) (b : Fin (m + 1)) : ℝ :=
  ∑ i, if i ≤ b then p i * binMeasure norm edges i else 0

theorem cumProb_eq {m : ℕ} (norm : Normalization) (edges : Fin (m + 2) → ℝ) (p : Fin (m + 1) → ℝ) (b : Fin (m + 1)) :
    cumProb (binWidth norm edges) p b = contentUpTo norm edges p b := by
  unfold cumProb contentUpTo
  rw [Finset.sum_filter]
  simp only [binWidth_eq]

theorem contentUpTo_mono {m : ℕ} {norm : Normalization} {edges : Fin (m + 2) → ℝ} {p : Fin (m + 1) → ℝ} (h : ∀ b, 0 ≤ p b * binMeasure norm edges b) :
    Monotone (contentUpTo norm edges p) := by
  intro a b hab
  refine Finset.sum_le_sum fun i _ => ?_
  split_ifs with h1 h2 h2
  · exact le_rfl
  · exact absurd (h1.trans hab) h2
  · exact h i
  · exact le_rfl

theorem contentUpTo_last {m : ℕ} (norm : Normalization) (edges : Fin (m + 2) → ℝ) (p : Fin (m + 1) → ℝ) : contentUpTo norm edges p (Fin.last m) = pdfIntegral norm edges p := by
  unfold contentUpTo pdfIntegral
  refine Finset.sum_congr rfl fun i _ => ?_
  rw [if_pos (Fin.le_last i)]

theorem contentUpTo_nonneg {m : ℕ} {norm : Normalization} {edges : Fin (m + 2) → ℝ} {p : Fin (m + 1) → ℝ} (h : ∀ b, 0 ≤ p b * binMeasure norm edges b) (b : Fin (m + 1)) :
    0 ≤ contentUpTo norm edges p b := by
  refine Finset.sum_nonneg fun i _ => ?_
  split_ifs
  · exact h i
  · exact le_rfl

/-- the cdf: the fraction of the content up to a bin; 0 for an empty PDF -/
theorem cdfValues_eq {m : ℕ} {norm : Normalization} {edges : Fin (m + 2) → ℝ} {p : Fin (m + 1) → ℝ} (h : ∀ b, 0 ≤ p b * binMeasure norm edges b) (b : Fin (m + 1)) :
    cdfValues norm edges p b = .fin (contentUpTo norm edges p b / pdfIntegral norm edges p) := by
  have hs : Finset.univ.sup' Finset.univ_nonempty (cumProb (binWidth norm edges) p) = pdfIntegral norm edges p := by
    apply le_antisymm
    · apply Finset.sup'_le
      intro i _
      rw [cumProb_eq, ← contentUpTo_last]
      exact contentUpTo_mono h (Fin.le_last i)
    · rw [← contentUpTo_last, ← cumProb_eq]
      exact Finset.le_sup' _ (Finset.mem_univ _)
  unfold cdfValues
  simp only
  rw [hs, cumProb_eq]
  by_cases h0 : pdfIntegral norm edges p = 0
  · have hb : contentUpTo norm edges p b = 0 := by
      have h1 := contentUpTo_mono h (Fin.le_last b)
      rw [contentUpTo_last, h0] at h1
      exact le_antisymm h1 (contentUpTo_nonneg h b)
    rw [h0, hb, FV.fin_div_zero]
    simp [FV.nanToNum0]
  · rw [FV.fin_div_fin _ _ h0]; rfl

/-- **C58** For a PDF >= 0 on strictly increasing edges, every value of `cdf_values` is the fraction of the content in the bins up to that one: a nondecreasing
sequence in [0, 1] that ends at 1, or all 0 for an empty PDF. -/
theorem C58_cdf_values {m : ℕ} {norm : Normalization} {edges : Fin (m + 2) → ℝ} (he : GoodEdges norm edges) (p : Fin (m + 1) → ℝ) (hp : ∀ b, 0 ≤ p b) :
    ∃ F : Fin (m + 1) → ℝ, (∀ b, cdfValues norm edges p b = .fin (F b)) ∧ Monotone F ∧ (∀ b, 0 ≤ F b ∧ F b ≤ 1) ∧
      ((∃ b, p b ≠ 0) → F (Fin.last m) = 1 ∧ ∀ b, F b * pdfIntegral norm edges p = contentUpTo norm edges p b) ∧ ((∀ b, p b = 0) → ∀ b, F b = 0) := by
  have h : ∀ b, 0 ≤ p b * binMeasure norm edges b := fun b => mul_nonneg (hp b) (by rw [← binWidth_eq]; exact (binWidth_pos he b).le)
  have hI : 0 ≤ pdfIntegral norm edges p := Finset.sum_nonneg fun b _ => h b
  refine ⟨fun b => contentUpTo norm edges p b / pdfIntegral norm edges p, cdfValues_eq h, ?_, ?_, ?_, ?_⟩
  · intro a b hab
    exact div_le_div_of_nonneg_right (contentUpTo_mono h hab) hI
  · intro b
    refine ⟨div_nonneg (contentUpTo_nonneg h b) hI, ?_⟩
    refine div_le_one_of_le₀ ?_ hI
    rw [← contentUpTo_last]
    exact contentUpTo_mono h (Fin.le_last b)
  · intro hne
    have := (pdfIntegral_pos he hp hne).ne'
    refine ⟨?_, fun b => div_mul_cancel₀ _ this⟩
    simp only
    rw [contentUpTo_last, div_self this]
  · intro hz b
    simp [contentUpTo, hz]

/-! ## Quantile functions -/

/-- `np.interp` with strictly increasing nodes and values is strictly increasing on the range of the nodes. -/
theorem interp_strict {nodes : List (ℝ × ℝ)} (hs : nodes.Pairwise fun a b => a.1 < b.1 ∧ a.2 < b.2) (hn : nodes ≠ []) {x y : ℝ} (h0 : (nodes.head hn).1 ≤ x) (hxy : x < y)
    (h1 : y ≤ (nodes.getLast hn).1) {v u : ℝ} (hv : interp (finNodes nodes) (.fin x) = .fin v) (hu : interp (finNodes nodes) (.fin y) = .fin u) : v < u := by
  have hmono : ∀ (i j : ℕ) (hi : i < nodes.length) (hj : j < nodes.length), i < j → nodes[i].1 < nodes[j].1 ∧ nodes[i].2 < nodes[j].2 :=
    fun i j hi hj hij => List.pairwise_iff_getElem.mp hs i j hi hj hij
  have hlast : nodes.getLast hn = nodes[nodes.length - 1]'(by have := List.length_pos_iff.mpr hn; omega) := List.getLast_eq_getElem hn
  obtain ⟨v', hv', hvc⟩ := Bench.interp_cases nodes x hn
  obtain ⟨u', hu', huc⟩ := Bench.interp_cases nodes y hn
  rw [hv] at hv'; rw [hu] at hu'
  obtain rfl : v = v' := by simpa using hv'
  obtain rfl : u = u' := by simpa using hu'
  rcases hvc with ⟨hc, _⟩ | ⟨j, hj, ha, hb, hveq⟩ | ⟨hc, _⟩
  · linarith
  · have hjj := hmono j (j + 1) (by omega) hj (by omega)
    have hd : 0 < nodes[j + 1].1 - nodes[j].1 := by linarith [hjj.1]
    have hvlt : v < nodes[j + 1].2 := by
      rw [hveq]
      have : (nodes[j + 1].2 - nodes[j].2) / (nodes[j + 1].1 - nodes[j].1) * (x - nodes[j].1) < nodes[j + 1].2 - nodes[j].2 := by
        rw [div_mul_eq_mul_div, div_lt_iff₀ hd]
        exact mul_lt_mul_of_pos_left (by linarith) (by linarith [hjj.2])
      linarith
    rcases huc with ⟨hc, _⟩ | ⟨k, hk, hka, hkb, hueq⟩ | ⟨hc, hueq⟩
    · linarith
    · have hkk := hmono k (k + 1) (by omega) hk (by omega)
      have hdk : 0 < nodes[k + 1].1 - nodes[k].1 := by linarith [hkk.1]
      have hsl : 0 < (nodes[k + 1].2 - nodes[k].2) / (nodes[k + 1].1 - nodes[k].1) := div_pos (by linarith [hkk.2]) hdk
      rcases lt_trichotomy j k with hjk | hjk | hjk
      · have : nodes[j + 1].2 ≤ nodes[k].2 := by
          rcases Nat.lt_or_ge (j + 1) k with h | h
          · exact (hmono (j + 1) k hj (by omega) h).2.le
          · have : j + 1 = k := by omega
            subst this; exact le_rfl
        have h2 : 0 ≤ (nodes[k + 1].2 - nodes[k].2) / (nodes[k + 1].1 - nodes[k].1) * (y - nodes[k].1) := mul_nonneg hsl.le (by linarith)
        linarith
      · subst hjk
        rw [hveq, hueq]
        have := mul_lt_mul_of_pos_left (show x - nodes[j].1 < y - nodes[j].1 by linarith) hsl
        linarith
      · have : nodes[k + 1].1 ≤ nodes[j].1 := by
          rcases Nat.lt_or_ge (k + 1) j with h | h
          · exact (hmono (k + 1) j hk (by omega) h).1.le
          · have : k + 1 = j := by omega
            subst this; exact le_rfl
        linarith
    · rw [hueq, hlast]
      have : nodes[j + 1].2 ≤ (nodes[nodes.length - 1]'(by omega)).2 := by
        rcases Nat.lt_or_ge (j + 1) (nodes.length - 1) with h | h
        · exact (hmono (j + 1) _ hj (by omega) h).2.le
        · have : j + 1 = nodes.length - 1 := by omega
          simp only [this]; exact le_rfl
      linarith
  · linarith

/-- a nondecreasing function on the bins from 0 to 1 -/
structure IsCdf {m : ℕ} (F : Fin (m + 1) → ℝ) : Prop where
  mono : Monotone F
  first : F 0 = 0
  last : F (Fin.last m) = 1

theorem beq_fin {a b : ℝ} : FV.beq (FV.fin a) (FV.fin b) = decide (a = b) := by
  rw [Bool.eq_iff_iff, FV.beq_iff]; simp

/-- the last bin at which the cdf is 0 -/
theorem last0_spec {m : ℕ} {F : Fin (m + 1) → ℝ} (h : IsCdf F) : F (last0 fun b => .fin (F b)) = 0 ∧ ∀ i, F i = 0 → i ≤ last0 fun b => .fin (F b) := by
  set l := (List.finRange (m + 1)).filter fun i => FV.beq (FV.fin (F i)) (.fin 0) with hl
  have hmem : ∀ i, i ∈ l ↔ F i = 0 := by
    intro i; rw [hl]; simp [beq_fin]
  have hne : l ≠ [] := List.ne_nil_of_mem ((hmem 0).mpr h.first)
  have hsorted : l.Pairwise (· < ·) := (List.pairwise_lt_finRange (m + 1)).filter _
  have he : (last0 fun b => .fin (F b)) = l.getLast hne := by
    unfold last0
    rw [if_pos (by show FV.beq (FV.fin (F 0)) (.fin 0) = true; rw [h.first, beq_fin]; simp), ← hl, List.getLast?_eq_some_getLast hne]
    rfl
  rw [he]
  refine ⟨(hmem _).mp (List.getLast_mem hne), fun i hi => ?_⟩
  obtain ⟨k, hk, rfl⟩ := List.mem_iff_getElem.mp ((hmem i).mpr hi)
  rw [List.getLast_eq_getElem hne]
  rcases Nat.lt_or_ge k (l.length - 1) with hlt | hge
  · exact (List.pairwise_iff_getElem.mp hsorted k (l.length - 1) hk (by omega) hlt).le
  · have : k = l.length - 1 := by omega
    subst this; exact le_rfl

/-- the first bin at which the cdf is 1 -/
theorem first1_spec {m : ℕ} {F : Fin (m + 1) → ℝ} (h : IsCdf F) : ∃ f1, (first1 fun b => .fin (F b)) = some f1 ∧ F f1 = 1 ∧ ∀ i, F i = 1 → f1 ≤ i := by
  set l := (List.finRange (m + 1)).filter fun i => FV.beq (FV.fin (F i)) (.fin 1) with hl
  have hmem : ∀ i, i ∈ l ↔ F i = 1 := by
    intro i; rw [hl]; simp [beq_fin]
  have hne : l ≠ [] := List.ne_nil_of_mem ((hmem _).mpr h.last)
  have hsorted : l.Pairwise (· < ·) := (List.pairwise_lt_finRange (m + 1)).filter _
  refine ⟨l.head hne, ?_, (hmem _).mp (List.head_mem hne), fun i hi => ?_⟩
  · unfold first1
    rw [← hl, List.head?_eq_some_head hne]
  · obtain ⟨k, hk, rfl⟩ := List.mem_iff_getElem.mp ((hmem i).mpr hi)
    rw [List.head_eq_getElem hne]
    rcases Nat.eq_zero_or_pos k with h0 | h0
    · subst h0; exact le_rfl
    · exact (List.pairwise_iff_getElem.mp hsorted 0 k (by omega) hk h0).le

/-- The bins that stand for their cdf value: the last one with 0, otherwise the first one with that value. -/
def Representative {m : ℕ} (F : Fin (m + 1) → ℝ) (i : Fin (m + 1)) : Prop := (F i = 0 ∧ ∀ j, F j = 0 → j ≤ i) ∨ (F i ≠ 0 ∧ ∀ j, F j = F i → i ≤ j)

theorem selected_iff {m : ℕ} {F : Fin (m + 1) → ℝ} (h : IsCdf F) {f1 : Fin (m + 1)} (hf : F f1 = 1 ∧ ∀ i, F i = 1 → f1 ≤ i) (i : Fin (m + 1)) :
    selected (fun b => .fin (F b)) f1 i = true ↔ Representative F i := by
  obtain ⟨h0, h0'⟩ := last0_spec h
  set l0 := last0 fun b => FV.fin (F b) with hl0
  have hlt : l0 < f1 := by
    by_contra hc
    have := h.mono (not_lt.mp hc)
    rw [h0, hf.1] at this; norm_num at this
  have hpred : ∀ i : Fin (m + 1), predBin i ≤ i := fun i => by rw [Fin.le_def]; simp [predBin]
  unfold selected
  simp only [decide_eq_true_eq]
  rw [← hl0]
  have hs1 : (i.val = 0 ∨ FV.bne (FV.fin (F i)) (FV.fin (F (predBin i))) = true) ↔ (i.val = 0 ∨ F i ≠ F (predBin i)) := by
    simp [FV.bne, beq_fin]
  rw [hs1]
  unfold Representative
  by_cases h1 : f1 < i
  · rw [if_pos h1]
    have hFi : F i = 1 := le_antisymm (by rw [← h.last]; exact h.mono (Fin.le_last i)) (by rw [← hf.1]; exact h.mono h1.le)
    constructor
    · exact fun h => h.elim
    · rintro (⟨ha, _⟩ | ⟨_, hb⟩)
      · rw [hFi] at ha; norm_num at ha
      · exact absurd (hb f1 (by rw [hf.1, hFi])) (not_le.mpr h1)
  rw [if_neg h1]
  by_cases h2 : i = f1
  · rw [if_pos h2]
    simp only [true_iff]
    right
    rw [h2, hf.1]
    exact ⟨by norm_num, hf.2⟩
  rw [if_neg h2]
  by_cases h3 : i < l0
  · rw [if_pos h3]
    have hFi : F i = 0 := le_antisymm (by rw [← h0]; exact h.mono h3.le) (by rw [← h.first]; exact h.mono (Fin.zero_le i))
    constructor
    · exact fun h => h.elim
    · rintro (⟨_, hb⟩ | ⟨ha, _⟩)
      · exact absurd (hb l0 h0) (not_le.mpr h3)
      · exact absurd hFi ha
  rw [if_neg h3]
  by_cases h4 : i = l0
  · rw [if_pos h4]
    simp only [true_iff]
    left
    rw [h4]
    exact ⟨h0, h0'⟩
  rw [if_neg h4]
  have h5 : l0 < i := lt_of_le_of_ne (not_lt.mp h3) (Ne.symm h4)
  have hFi : F i ≠ 0 := fun hc => absurd (h0' i hc) (not_le.mpr h5)
  have hi0 : i.val ≠ 0 := by
    intro hc
    have : i = 0 := Fin.ext (by simpa using hc)
    rw [this] at hFi; exact hFi h.first
  constructor
  · rintro (hc | hc)
    · exact absurd hc hi0
    · right
      refine ⟨hFi, fun j hj => ?_⟩
      by_contra hji
      have hjp : j ≤ predBin i := by rw [Fin.le_def]; simp only [predBin]; have := Fin.lt_def.mp (not_le.mp hji); omega
      have ha := h.mono hjp
      have hb := h.mono (hpred i)
      rw [hj] at ha
      exact hc (le_antisymm ha hb)
  · rintro (⟨ha, _⟩ | ⟨_, hb⟩)
    · exact absurd ha hFi
    · right
      intro hc
      have := hb (predBin i) hc.symm
      rw [Fin.le_def] at this
      simp only [predBin] at this
      omega

/-- the table of the inverse interpolation for a cdf -/
theorem ppfNodes_spec {m : ℕ} {F : Fin (m + 1) → ℝ} (h : IsCdf F) {mids : Fin (m + 1) → ℝ} (hm : StrictMono mids) {f1 : Fin (m + 1)} (hf : F f1 = 1 ∧ ∀ i, F i = 1 → f1 ≤ i) :
    ∃ nodes : List (ℝ × ℝ), ppfNodes mids (fun b => .fin (F b)) f1 = finNodes nodes ∧ nodes.Pairwise (fun a b => a.1 < b.1 ∧ a.2 < b.2) ∧
      (∀ i, Representative F i → (F i, mids i) ∈ nodes) ∧ (∀ e ∈ nodes, ∃ i, Representative F i ∧ e = (F i, mids i)) := by
  refine ⟨((List.finRange (m + 1)).filter fun i => selected (fun b => .fin (F b)) f1 i).map fun i => (F i, mids i), ?_, ?_, ?_, ?_⟩
  · unfold ppfNodes finNodes
    rw [List.map_map]
    rfl
  · rw [List.pairwise_map]
    have hp : ((List.finRange (m + 1)).filter fun i => selected (fun b => .fin (F b)) f1 i).Pairwise (· < ·) := (List.pairwise_lt_finRange (m + 1)).filter _
    refine hp.imp_of_mem ?_
    intro a b ha hb hab
    have ha' := (selected_iff h hf a).mp (List.mem_filter.mp ha).2
    have hb' := (selected_iff h hf b).mp (List.mem_filter.mp hb).2
    refine ⟨lt_of_le_of_ne (h.mono hab.le) fun hc => ?_, hm hab⟩
    rcases hb' with ⟨hb0, _⟩ | ⟨_, hb2⟩
    · rcases ha' with ⟨_, ha2⟩ | ⟨ha1, _⟩
      · exact absurd (ha2 b hb0) (not_le.mpr hab)
      · exact ha1 ((show F a = F b from hc).trans hb0)
    · exact absurd (hb2 a hc) (not_le.mpr hab)
  · intro i hi
    rw [List.mem_map]
    exact ⟨i, List.mem_filter.mpr ⟨List.mem_finRange i, (selected_iff h hf i).mpr hi⟩, rfl⟩
  · intro e he
    obtain ⟨i, hi, rfl⟩ := List.mem_map.mp he
    exact ⟨i, (selected_iff h hf i).mp (List.mem_filter.mp hi).2, rfl⟩

theorem exists_representative {m : ℕ} {F : Fin (m + 1) → ℝ} (h : IsCdf F) : (∃ i, Representative F i ∧ F i = 0) ∧ ∃ i, Representative F i ∧ F i = 1 := by
  obtain ⟨h0, h0'⟩ := last0_spec h
  obtain ⟨f1, _, h1, h1'⟩ := first1_spec h
  refine ⟨⟨_, Or.inl ⟨h0, h0'⟩, h0⟩, ⟨f1, Or.inr ⟨by rw [h1]; norm_num, fun j hj => h1' j (by rw [hj, h1])⟩, h1⟩⟩

/-- `np.interp` between two neighbouring nodes -/
theorem interp_segment {nodes : List (ℝ × ℝ)} (hs : nodes.Pairwise fun a b => a.1 < b.1) (k : ℕ) (hk : k + 1 < nodes.length) {x : ℝ} (h0 : nodes[k].1 ≤ x) (h1 : x ≤ nodes[k + 1].1) :
    interp (finNodes nodes) (.fin x) = .fin (nodes[k].2 + (x - nodes[k].1) / (nodes[k + 1].1 - nodes[k].1) * (nodes[k + 1].2 - nodes[k].2)) := by
  have hmono : ∀ (i j : ℕ) (hi : i < nodes.length) (hj : j < nodes.length), i < j → nodes[i].1 < nodes[j].1 := fun i j hi hj hij => List.pairwise_iff_getElem.mp hs i j hi hj hij
  have hd : nodes[k + 1].1 - nodes[k].1 ≠ 0 := (sub_pos.mpr (hmono k (k + 1) (by omega) hk (by omega))).ne'
  rcases h1.lt_or_eq with h1 | h1
  · have hne : nodes ≠ [] := by intro h; rw [h] at hk; simp at hk
    obtain ⟨v, hv, hc⟩ := Bench.interp_cases nodes x hne
    rw [hv]
    rcases hc with ⟨hc, _⟩ | ⟨j, hj, ha, hb, rfl⟩ | ⟨hc, _⟩
    · rw [List.head_eq_getElem hne] at hc
      rcases Nat.eq_zero_or_pos k with hk0 | hk0
      · subst hk0; linarith
      · have := hmono 0 k (by omega) (by omega) hk0; linarith
    · have hjk : j = k := by
        rcases lt_trichotomy j k with h | h | h
        · rcases Nat.lt_or_ge (j + 1) k with h' | h'
          · have := hmono (j + 1) k hj (by omega) h'; linarith
          · obtain rfl : k = j + 1 := by omega
            linarith
        · exact h
        · rcases Nat.lt_or_ge (k + 1) j with h' | h'
          · have := hmono (k + 1) j hk (by omega) h'; linarith
          · obtain rfl : j = k + 1 := by omega
            linarith
      subst hjk
      congr 1
      ring
    · rw [List.getLast_eq_getElem hne] at hc
      rcases Nat.lt_or_ge (k + 1) (nodes.length - 1) with h' | h'
      · have := hmono (k + 1) (nodes.length - 1) hk (by omega) h'; linarith
      · have : nodes.length - 1 = k + 1 := by omega
        simp only [this] at hc
        linarith
  · have := interp_node nodes (by unfold SortedNodes; rw [List.pairwise_map]; exact hs) (k + 1) hk
    rw [h1, this, div_self hd]
    congr 1
    ring

/-- The quantile function of a cdf. -/
theorem ppfValue_spec {m : ℕ} {F : Fin (m + 1) → ℝ} (h : IsCdf F) {mids : Fin (m + 1) → ℝ} (hm : StrictMono mids) :
    ∃ P : ℝ → ℝ, (∀ q, ppfValue mids (fun b => .fin (F b)) q = .ok (.fin (P q))) ∧ StrictMonoOn P (Set.Icc 0 1) ∧ (∀ i, Representative F i → P (F i) = mids i) ∧
      ∀ i j, Representative F i → Representative F j → i < j → (∀ k, Representative F k → k ≤ i ∨ j ≤ k) → ∀ q, F i ≤ q → q ≤ F j →
        P q = mids i + (q - F i) / (F j - F i) * (mids j - mids i) := by
  obtain ⟨f1, hf, hf1⟩ := first1_spec h
  obtain ⟨nodes, hn, hs, hrep, hrange⟩ := ppfNodes_spec h hm hf1
  obtain ⟨⟨i0, hi0, hi0'⟩, ⟨i1, hi1, hi1'⟩⟩ := exists_representative h
  have hne : nodes ≠ [] := List.ne_nil_of_mem (hrep i0 hi0)
  have hsum : FV.gt (fsum (List.ofFn fun b => FV.fin (F b))) (.fin 0) = true := by
    rw [fsum_ofFn]
    simp only [FV.gt, FV.lt_fin, decide_eq_true_eq]
    refine Finset.sum_pos' (fun i _ => by rw [← h.first]; exact h.mono (Fin.zero_le i)) ⟨Fin.last m, Finset.mem_univ _, by rw [h.last]; norm_num⟩
  have hv : ∀ q, ∃ v, interp (finNodes nodes) (.fin q) = .fin v := fun q => by
    obtain ⟨v, hv, _⟩ := Bench.interp_cases nodes q hne
    exact ⟨v, hv⟩
  choose P hP using hv
  have hhead : (nodes.head hne).1 ≤ 0 := by
    have hmem := hrep i0 hi0
    obtain ⟨k, hk, hke⟩ := List.mem_iff_getElem.mp hmem
    have : nodes[k].1 = 0 := by rw [hke]; exact hi0'
    rw [List.head_eq_getElem hne]
    rcases Nat.eq_zero_or_pos k with h0 | h0
    · subst h0; exact this.le
    · rw [← this]; exact (List.pairwise_iff_getElem.mp hs 0 k (by omega) hk h0).1.le
  have hlast : 1 ≤ (nodes.getLast hne).1 := by
    have hmem := hrep i1 hi1
    obtain ⟨k, hk, hke⟩ := List.mem_iff_getElem.mp hmem
    have : nodes[k].1 = 1 := by rw [hke]; exact hi1'
    rw [List.getLast_eq_getElem hne]
    rcases Nat.lt_or_ge k (nodes.length - 1) with h0 | h0
    · rw [← this]; exact (List.pairwise_iff_getElem.mp hs k (nodes.length - 1) hk (by omega) h0).1.le
    · have hk' : k = nodes.length - 1 := by omega
      subst hk'; exact this.ge
  refine ⟨P, fun q => ?_, ?_, ?_, ?_⟩
  · unfold ppfValue
    rw [if_pos hsum, hf]
    simp only
    rw [hn, hP q]
  · intro x hx y hy hxy
    exact interp_strict hs hne (hhead.trans hx.1) hxy (hy.2.trans hlast) (hP x) (hP y)
  · intro i hi
    obtain ⟨k, hk, hke⟩ := List.mem_iff_getElem.mp (hrep i hi)
    have := interp_node nodes (by unfold SortedNodes; rw [List.pairwise_map]; exact hs.imp fun h => h.1) k hk
    rw [hke] at this
    simp only at this
    have h2 := (hP (F i)).symm.trans this
    simpa using h2
  · intro i j hi hj hij hcons q hq0 hq1
    obtain ⟨a, ha, hae⟩ := List.mem_iff_getElem.mp (hrep i hi)
    obtain ⟨b, hb, hbe⟩ := List.mem_iff_getElem.mp (hrep j hj)
    have hmono : ∀ (i j : ℕ) (hi : i < nodes.length) (hj : j < nodes.length), i < j → nodes[i].1 < nodes[j].1 ∧ nodes[i].2 < nodes[j].2 :=
      fun i j hi hj hij => List.pairwise_iff_getElem.mp hs i j hi hj hij
    have hab : a < b := by
      by_contra hc
      rcases Nat.lt_or_ge b a with h' | h'
      · have := (hmono b a hb ha h').2
        rw [hae, hbe] at this
        exact absurd this (not_lt.mpr (hm hij).le)
      · obtain rfl : a = b := by omega
        rw [hae] at hbe
        have : mids i = mids j := congrArg Prod.snd hbe
        exact (hm hij).ne this
    have hb1 : b = a + 1 := by
      by_contra hc
      have hlt : a + 1 < b := by omega
      obtain ⟨k, hk, hke⟩ := hrange _ (List.getElem_mem (show a + 1 < nodes.length by omega))
      have h1 := (hmono a (a + 1) ha (by omega) (by omega)).2
      have h2 := (hmono (a + 1) b (by omega) hb hlt).2
      rw [hae, hke] at h1
      rw [hbe, hke] at h2
      have h1' : i < k := hm.lt_iff_lt.mp h1
      have h2' : k < j := hm.lt_iff_lt.mp h2
      rcases hcons k hk with h | h
      · exact absurd h1' (not_lt.mpr h)
      · exact absurd h2' (not_lt.mpr h)
    subst hb1
    have := interp_segment (hs.imp fun h => h.1) a hb (x := q) (by rw [hae]; exact hq0) (by rw [hbe]; exact hq1)
    rw [hae, hbe] at this
    have h2 := (hP q).symm.trans this
    simpa using h2

/-- an empty PDF has no quantiles -/
theorem ppfValue_empty {m : ℕ} (mids : Fin (m + 1) → ℝ) (q : ℝ) : ppfValue mids (fun _ => .fin 0) q = .ok .nan := by
  unfold ppfValue
  rw [if_neg]
  rw [fsum_ofFn]; simp [FV.gt]

/-! ## The density -/

/-- `v` is the density at `x` of a distribution with the quantiles `Q i` of the probabilities `q i`: the difference quotient in the middle between two quantiles,
linear in between and zero beyond the first and the last middle. -/
structure DensityAt {M : ℕ} (Q q : Fin (M + 2) → ℝ) (x v : ℝ) : Prop where
  outside : (x < (Q 0 + Q 1) / 2 ∨ (Q (Fin.last M).castSucc + Q (Fin.last M).succ) / 2 < x) → v = 0
  node : ∀ i : Fin (M + 1), x = (Q i.castSucc + Q i.succ) / 2 → v = (q i.succ - q i.castSucc) / (Q i.succ - Q i.castSucc)
  linear : ∀ i j : Fin (M + 1), j.val = i.val + 1 → (Q i.castSucc + Q i.succ) / 2 ≤ x → x ≤ (Q j.castSucc + Q j.succ) / 2 →
    v = (q i.succ - q i.castSucc) / (Q i.succ - Q i.castSucc) + (x - (Q i.castSucc + Q i.succ) / 2) / ((Q j.castSucc + Q j.succ) / 2 - (Q i.castSucc + Q i.succ) / 2) *
      ((q j.succ - q j.castSucc) / (Q j.succ - Q j.castSucc) - (q i.succ - q i.castSucc) / (Q i.succ - Q i.castSucc))

/-- the middles between the quantiles are strictly increasing -/
theorem middles_strict {M : ℕ} {P : Fin (M + 2) → ℝ} (hP : StrictMono P) : StrictMono fun i : Fin (M + 1) => (P i.castSucc + P i.succ) / 2 := by
  intro a b hab
  have h1 := hP (show a.castSucc < b.castSucc from hab)
  have h2 := hP (Fin.succ_lt_succ_iff.mpr hab)
  simp only
  linarith

/-- `pdf_from_ppf` of a strictly increasing quantile function is nonnegative -/
theorem pdfFromPpf_nonneg {M : ℕ} {P q : Fin (M + 2) → ℝ} (hP : StrictMono P) (hq : StrictMono q) (x : ℝ) : ∃ v : ℝ, pdfFromPpf (fun i => .fin (P i)) q x = .fin v ∧ 0 ≤ v ∧ DensityAt P q x v := by
  have hd : ∀ i : Fin (M + 1), 0 < P i.succ - P i.castSucc := fun i => sub_pos.mpr (hP Fin.castSucc_lt_succ)
  have hpdf : ∀ i : Fin (M + 1), FV.nanToNum0 (FV.fin (q i.succ - q i.castSucc) / (FV.fin (P i.succ) - FV.fin (P i.castSucc))) =
      .fin ((q i.succ - q i.castSucc) / (P i.succ - P i.castSucc)) := by
    intro i
    rw [FV.fin_sub_fin, FV.fin_div_fin _ _ (hd i).ne']; rfl
  have hmid : ∀ i : Fin (M + 1), (FV.fin (P i.castSucc) + (FV.fin (P i.succ) - FV.fin (P i.castSucc)) / FV.fin 2 : FV ℝ) = .fin ((P i.castSucc + P i.succ) / 2) := by
    intro i
    rw [FV.fin_sub_fin, FV.fin_div_fin _ _ (by norm_num), FV.fin_add_fin]
    congr 1; ring
  unfold pdfFromPpf
  simp only [hpdf, hmid]
  have hms := middles_strict hP
  have h01 : ((0 : Fin (M + 1)).castSucc = (0 : Fin (M + 2))) ∧ ((0 : Fin (M + 1)).succ = (1 : Fin (M + 2))) := ⟨rfl, rfl⟩
  have hrange : ∀ i : Fin (M + 1), (P 0 + P 1) / 2 ≤ (P i.castSucc + P i.succ) / 2 ∧ (P i.castSucc + P i.succ) / 2 ≤ (P (Fin.last M).castSucc + P (Fin.last M).succ) / 2 := by
    intro i
    have h1 := hms.monotone (Fin.zero_le i)
    have h2 := hms.monotone (Fin.le_last i)
    simp only [h01.1, h01.2] at h1
    exact ⟨h1, h2⟩
  have hout : ((x < (P 0 + P 1) / 2 ∨ (P (Fin.last M).castSucc + P (Fin.last M).succ) / 2 < x)) → DensityAt P q x 0 := by
    intro ho
    refine ⟨fun _ => rfl, fun i hx => ?_, fun i j _ h1 h2 => ?_⟩
    · have := hrange i
      rcases ho with ho | ho <;> linarith [this.1, this.2]
    · have hi := hrange i
      have hj := hrange j
      rcases ho with ho | ho <;> linarith [hi.1, hj.2]
  simp only [FV.gt, FV.lt_fin, decide_eq_true_eq, h01.1, h01.2]
  split
  · rename_i hx
    exact ⟨0, rfl, le_rfl, hout (Or.inl hx)⟩
  rename_i hx0
  split
  · rename_i hx
    exact ⟨0, rfl, le_rfl, hout (Or.inr hx)⟩
  rename_i hx1
  set nodes : List (ℝ × ℝ) := List.ofFn fun i : Fin (M + 1) => ((P i.castSucc + P i.succ) / 2, (q i.succ - q i.castSucc) / (P i.succ - P i.castSucc)) with hnodes
  have hl : (List.ofFn fun i : Fin (M + 1) => (FV.fin ((P i.castSucc + P i.succ) / 2), FV.fin ((q i.succ - q i.castSucc) / (P i.succ - P i.castSucc)))) = finNodes nodes := by
    rw [hnodes]; unfold finNodes; rw [List.map_ofFn]; rfl
  rw [hl]
  have hpos : ∀ e ∈ nodes, 0 ≤ e.2 := by
    intro e he
    rw [hnodes, List.mem_ofFn] at he
    obtain ⟨i, rfl⟩ := he
    exact div_nonneg (sub_nonneg.mpr (hq Fin.castSucc_lt_succ).le) (hd i).le
  have hne : nodes ≠ [] := by rw [hnodes]; simp
  obtain ⟨v, hv, hc⟩ := Bench.interp_cases nodes x hne
  have hsort : nodes.Pairwise fun a b => a.1 < b.1 := by
    rw [hnodes, List.pairwise_ofFn]
    intro i j hij
    exact hms hij
  have hget : ∀ (i : Fin (M + 1)) (h : i.val < nodes.length), nodes[i.val] = ((P i.castSucc + P i.succ) / 2, (q i.succ - q i.castSucc) / (P i.succ - P i.castSucc)) := by
    intro i h
    simp only [hnodes, List.getElem_ofFn]
  have hlen : nodes.length = M + 1 := by simp [hnodes]
  refine ⟨v, by rw [hv]; rfl, ?_, ⟨fun ho => ?_, fun i hx => ?_, fun i j hij h1 h2 => ?_⟩⟩
  rotate_left
  · rcases ho with ho | ho
    · exact absurd ho hx0
    · exact absurd ho hx1
  · have := interp_node nodes (by unfold SortedNodes; rw [List.pairwise_map]; exact hsort) i.val (by omega)
    rw [hget i] at this
    simp only [← hx] at this
    simpa using hv.symm.trans this
  · have := interp_segment hsort i.val (by omega) (x := x) (by rw [hget i]; exact h1) (by simp only [← hij]; rw [hget j]; exact h2)
    simp only [← hij] at this
    rw [hget i, hget j] at this
    simpa using hv.symm.trans this
  rcases hc with ⟨_, rfl⟩ | ⟨j, hj, ha, hb, rfl⟩ | ⟨_, rfl⟩
  · exact hpos _ (List.head_mem hne)
  · have h1 := hpos _ (List.getElem_mem (show j < nodes.length by omega))
    have h2 := hpos _ (List.getElem_mem hj)
    have hdd : 0 < nodes[j + 1].1 - nodes[j].1 := by linarith
    rw [show (nodes[j + 1].2 - nodes[j].2) / (nodes[j + 1].1 - nodes[j].1) * (x - nodes[j].1) + nodes[j].2 =
      nodes[j].2 * ((nodes[j + 1].1 - x) / (nodes[j + 1].1 - nodes[j].1)) + nodes[j + 1].2 * ((x - nodes[j].1) / (nodes[j + 1].1 - nodes[j].1)) by field_simp; ring]
    exact add_nonneg (mul_nonneg h1 (div_nonneg (by linarith) hdd.le)) (mul_nonneg h2 (div_nonneg (by linarith) hdd.le))
  · exact hpos _ (List.getLast_mem hne)

/-- `pdf_from_ppf` of NaNs is zero -/
theorem pdfFromPpf_nan {M : ℕ} (q : Fin (M + 2) → ℝ) (x : ℝ) : pdfFromPpf (fun _ => .nan) q x = .fin 0 := by
  unfold pdfFromPpf
  simp only [FV.nan_sub, FV.div_nan, FV.nan_div, FV.nan_add, FV.lt_nan, FV.gt, FV.nan_lt, FV.nanToNum0]
  have : ∀ (l : List (FV ℝ × FV ℝ)), l ≠ [] → (∀ e ∈ l, e = (.nan, .fin 0)) → interp l (.fin x) = .fin 0 := by
    intro l hl he
    have hgo : ∀ l : List (FV ℝ × FV ℝ), l ≠ [] → (∀ e ∈ l, e = (FV.nan, FV.fin 0)) → interpGo l (.fin x) = .fin 0 := by
      intro l
      induction l with
      | nil => intro h; exact absurd rfl h
      | cons a l ih =>
        intro _ he
        rw [he a (by simp)]
        rcases l with _ | ⟨b, l⟩
        · rfl
        · rw [he b (by simp)]
          unfold interpGo
          rw [if_neg (by simp)]
          have := ih (by simp) (fun e h => he e (by simp [h]))
          rw [he b (by simp)] at this
          exact this
    rcases l with _ | ⟨a, l⟩
    · exact absurd rfl hl
    · have := hgo (a :: l) hl he
      rw [he a (by simp)] at this ⊢
      unfold interp
      simp only [FV.isNan_fin, Bool.false_eq_true, if_false, FV.lt_nan]
      exact this
  simp only [Bool.false_eq_true, if_false]
  rw [this _ (by simp) (by intro e he; rw [List.mem_ofFn] at he; obtain ⟨_, rfl⟩ := he; rfl)]

/-- `norm_pdf` of finite nonnegative values, after `nan_to_num` -/
theorem normPdf_spec {n : ℕ} {norm : Normalization} {edges : Fin (n + 2) → ℝ} (he : GoodEdges norm edges) (v : Fin (n + 1) → ℝ) (hv : ∀ b, 0 ≤ v b) :
    IsPdfOrZero norm edges (fun b => FV.nanToNum0 (normPdf norm edges (fun b => .fin (v b)) b)) := by
  have hw : ∀ b, 0 < binMeasure norm edges b := fun b => by rw [← binWidth_eq]; exact binWidth_pos he b
  by_cases hs : ∑ b, v b = 0
  · refine ⟨fun _ => 0, fun b => ?_, fun _ => le_rfl, Or.inr fun _ => rfl⟩
    unfold normPdf
    rw [fsum_ofFn, hs]
    simp [FV.bne, beq_fin, FV.nanToNum0]
  · refine ⟨fun b => v b / ((∑ b, v b) * binMeasure norm edges b), fun b => ?_, fun b => ?_, Or.inl ?_⟩
    · unfold normPdf
      rw [fsum_ofFn]
      show FV.nanToNum0 (if FV.bne (.fin (∑ j, v j)) (.fin 0) then FV.fin (v b) / (.fin (∑ j, v j) * .fin (binWidth norm edges b)) else .fin 0) = _
      rw [if_pos (by simp [FV.bne, beq_fin, hs]), FV.fin_mul_fin, binWidth_eq, FV.fin_div_fin _ _ (mul_ne_zero hs (hw b).ne')]
      rfl
    · exact div_nonneg (hv b) (mul_nonneg (Finset.sum_nonneg fun i _ => hv i) (hw b).le)
    · unfold pdfIntegral
      have : ∀ b, v b / ((∑ b, v b) * binMeasure norm edges b) * binMeasure norm edges b = v b / ∑ b, v b := by
        intro b
        have := (hw b).ne'
        field_simp
      simp only [this]
      rw [← Finset.sum_div, div_self hs]

/-! ## The whole interpolation -/

theorem extPdf_measure {n : ℕ} {norm : Normalization} {edges : Fin (n + 2) → ℝ} (p : Fin (n + 1) → ℝ) :
    (∀ b : Fin (n + 1), extPdf p b.succ * binMeasure norm (extEdges edges) b.succ = p b * binMeasure norm edges b) ∧
    extPdf p 0 * binMeasure norm (extEdges edges) 0 = 0 := by
  constructor
  · intro b
    have h1 : extEdges edges b.succ.succ = edges b.succ := rfl
    have h2 : extEdges edges b.succ.castSucc = edges b.castSucc := by
      rw [← Fin.succ_castSucc]; rfl
    unfold binMeasure
    cases norm <;> simp only [h1, h2] <;> rfl
  · simp [extPdf]

theorem extMids {n : ℕ} {edges : Fin (n + 2) → ℝ} (h : StrictMono edges) : StrictMono (binMid (extEdges edges)) := by
  have hext : StrictMono (extEdges edges) := by
    rw [Fin.strictMono_iff_lt_succ]
    intro i
    have h01 : edges 0 < edges 1 := h (by simp)
    refine Fin.cases ?_ (fun j => ?_) i
    · show edges 0 - (edges 1 - edges 0) < edges 0
      linarith
    · have : extEdges edges j.succ.castSucc = edges j.castSucc := by rw [← Fin.succ_castSucc]; rfl
      rw [this]
      exact h Fin.castSucc_lt_succ
  have := mid_strictMono hext
  have e : binMid (extEdges edges) = middle (extEdges edges) := funext fun b => binMid_eq _ b
  rw [e]; exact this

/-- The cumulative distribution of a binned PDF, starting with 0 before the first bin. -/
noncomputable def cumulative {n : ℕ} (norm : Normalization) (edges : Fin (n + 2) → ℝ) (p : Fin (n + 1) → ℝ) : Fin (n + 2) → ℝ :=
  Fin.cons 0 fun b => contentUpTo norm edges p b / pdfIntegral norm edges p

/-- The centers of the bins, preceded by the center of a bin as wide as the first one. -/
noncomputable def centers {n : ℕ} (edges : Fin (n + 2) → ℝ) : Fin (n + 2) → ℝ := Fin.cons (edges 0 - (edges 1 - edges 0) / 2) fun b => (edges b.castSucc + edges b.succ) / 2

theorem centers_eq {n : ℕ} (edges : Fin (n + 2) → ℝ) : binMid (extEdges edges) = centers edges := by
  funext b
  refine Fin.cases ?_ (fun j => ?_) b
  · show 1 / 2 * ((edges 0 - (edges 1 - edges 0)) + edges 0) = edges 0 - (edges 1 - edges 0) / 2
    ring
  · have h2 : extEdges edges j.succ.castSucc = edges j.castSucc := by
      rw [← Fin.succ_castSucc]; rfl
    show 1 / 2 * (extEdges edges j.succ.castSucc + edges j.succ) = (edges j.castSucc + edges j.succ) / 2
    rw [h2]; ring

/-- the cdf of a template with the additional empty bin -/
theorem extCdf {n : ℕ} {norm : Normalization} {edges : Fin (n + 2) → ℝ} (he : GoodEdges norm edges) {p : Fin (n + 1) → ℝ} (hp : ∀ b, 0 ≤ p b) :
    ((∀ b, p b = 0) → ∀ b, cdfValues norm (extEdges edges) (extPdf p) b = .fin 0) ∧
    ((∃ b, p b ≠ 0) → IsCdf (cumulative norm edges p) ∧ (cdfValues norm (extEdges edges) (extPdf p)) = fun b => .fin (cumulative norm edges p b)) := by
  obtain ⟨hm1, hm0⟩ := extPdf_measure (norm := norm) (edges := edges) p
  have hw : ∀ b, 0 < binMeasure norm edges b := fun b => by rw [← binWidth_eq]; exact binWidth_pos he b
  have hnn : ∀ b, 0 ≤ extPdf p b * binMeasure norm (extEdges edges) b := by
    intro b
    refine Fin.cases ?_ (fun j => ?_) b
    · rw [hm0]
    · rw [hm1]; exact mul_nonneg (hp j) (hw j).le
  have hint : pdfIntegral norm (extEdges edges) (extPdf p) = pdfIntegral norm edges p := by
    unfold pdfIntegral
    rw [Fin.sum_univ_succ, hm0, zero_add]
    simp only [hm1]
  constructor
  · intro hz b
    rw [cdfValues_eq hnn, hint]
    have : pdfIntegral norm edges p = 0 := by simp [pdfIntegral, hz]
    rw [this, div_zero]
  · intro hne
    have hpos := pdfIntegral_pos he hp hne
    have hc0 : contentUpTo norm (extEdges edges) (extPdf p) 0 = 0 := by
      unfold contentUpTo
      apply Finset.sum_eq_zero
      intro i _
      split_ifs with h
      · have : i = 0 := Fin.le_zero_iff.mp h
        rw [this, hm0]
      · rfl
    have hcum : cumulative norm edges p = fun b => contentUpTo norm (extEdges edges) (extPdf p) b / pdfIntegral norm edges p := by
      funext b
      refine Fin.cases ?_ (fun j => ?_) b
      · rw [hc0, zero_div]; rfl
      · show contentUpTo norm edges p j / _ = _
        congr 1
        unfold contentUpTo
        symm
        rw [Fin.sum_univ_succ, hm0]
        simp only [hm1, Fin.succ_le_succ_iff, ite_self, zero_add]
    rw [hcum]
    refine ⟨⟨?_, ?_, ?_⟩, ?_⟩
    · intro a b hab; exact div_le_div_of_nonneg_right (contentUpTo_mono hnn hab) hpos.le
    · show contentUpTo norm (extEdges edges) (extPdf p) 0 / _ = 0
      rw [hc0, zero_div]
    · show contentUpTo norm (extEdges edges) (extPdf p) (Fin.last (n + 1)) / _ = 1
      rw [contentUpTo_last, hint, div_self hpos.ne']
    · funext b; rw [cdfValues_eq hnn, hint]

/-- `P` is the quantile function of the binned PDF `p`: strictly increasing on [0, 1] and linear between the points (cumulative probability, bin center); of the
bins with cumulative probability 0 the last one counts, of those with the same other value the first one. -/
structure IsQuantileFunction {n : ℕ} (norm : Normalization) (edges : Fin (n + 2) → ℝ) (p : Fin (n + 1) → ℝ) (P : ℝ → ℝ) : Prop where
  strict : StrictMonoOn P (Set.Icc 0 1)
  node : ∀ i, Representative (cumulative norm edges p) i → P (cumulative norm edges p i) = centers edges i
  linear : ∀ i j, Representative (cumulative norm edges p) i → Representative (cumulative norm edges p) j → i < j →
    (∀ k, Representative (cumulative norm edges p) k → k ≤ i ∨ j ≤ k) → ∀ q, cumulative norm edges p i ≤ q → q ≤ cumulative norm edges p j →
      P q = centers edges i + (q - cumulative norm edges p i) / (cumulative norm edges p j - cumulative norm edges p i) * (centers edges j - centers edges i)

/-- The ppf of a template: NaN if it is empty, otherwise strictly increasing on [0, 1]. -/
theorem extPpf {n : ℕ} {norm : Normalization} {edges : Fin (n + 2) → ℝ} (he : GoodEdges norm edges) {p : Fin (n + 1) → ℝ} (hp : ∀ b, 0 ≤ p b) :
    ((∀ b, p b = 0) → ∀ q, ppfValue (binMid (extEdges edges)) (cdfValues norm (extEdges edges) (extPdf p)) q = .ok .nan) ∧
    ((∃ b, p b ≠ 0) → ∃ P : ℝ → ℝ, (∀ q, ppfValue (binMid (extEdges edges)) (cdfValues norm (extEdges edges) (extPdf p)) q = .ok (.fin (P q))) ∧ IsQuantileFunction norm edges p P) := by
  obtain ⟨h0, h1⟩ := extCdf he hp
  constructor
  · intro hz q
    have : cdfValues norm (extEdges edges) (extPdf p) = fun _ => .fin 0 := funext (h0 hz)
    rw [this]
    exact ppfValue_empty _ q
  · intro hne
    obtain ⟨hF, hc⟩ := h1 hne
    obtain ⟨P, hP, hm, hr, hl⟩ := ppfValue_spec hF (extMids he.strict)
    rw [hc]
    rw [centers_eq] at hP hr hl ⊢
    exact ⟨P, hP, hm, hr, hl⟩

theorem quantileGrid_strict (M : ℕ) : StrictMono (quantileGrid M) ∧ ∀ i, quantileGrid M i ∈ Set.Icc (0 : ℝ) 1 := by
  have hpos : (0 : ℝ) < (M : ℝ) + 1 := by positivity
  constructor
  · intro a b hab
    unfold quantileGrid
    have : ((a.val : ℕ) : ℝ) < b.val := by exact_mod_cast hab
    exact div_lt_div_of_pos_right this hpos
  · intro i
    unfold quantileGrid
    refine ⟨by positivity, ?_⟩
    rw [div_le_one hpos]
    have := i.isLt
    have h2 : i.val ≤ M + 1 := by omega
    exact_mod_cast h2

/-- What is assumed about scipy's linear `griddata`: nothing outside the convex hull, weights >= 0 that add up to one inside. -/
def ConvexWeights {N : ℕ} (g : GridWeights N) : Prop := ∀ l, g = some l → (∀ e ∈ l, 0 ≤ e.2) ∧ (l.map Prod.snd).sum = 1

/-- the interpolation in one cell -/
noncomputable def quantileCell {N n : ℕ} (norm : Normalization) (edges : Fin (n + 2) → ℝ) (p : Fin N → Fin (n + 1) → ℝ) (M : ℕ) (g : GridWeights N) : Fin (n + 1) → FV ℝ :=
  fun b => FV.nanToNum0 (normPdf norm edges (fun b => pdfFromPpf (fun i => griddataAt g fun k =>
    okOr .nan (ppfValue (binMid (extEdges edges)) (cdfValues norm (extEdges edges) (extPdf (p k))) (quantileGrid M i))) (quantileGrid M) (edges b.castSucc)) b)

theorem quantile_eq {N n : ℕ} {C : Type*} {norm : Normalization} {edges : Fin (n + 2) → ℝ} (he : GoodEdges norm edges) (pdf : Fin N → C → Fin (n + 1) → ℝ) (hp : ∀ k c b, 0 ≤ pdf k c b)
    (res : ℝ) (hr0 : res ≠ 0) (hr : 2 ≤ npRound (1 / res)) (g : GridWeights N) :
    quantileInterpolate norm edges pdf res g = .ok fun c => quantileCell norm edges (fun k => pdf k c) (npRound (1 / res) - 2).toNat g := by
  unfold quantileInterpolate
  rw [if_neg hr0, if_neg (by omega)]
  simp only
  rw [if_neg]
  · rfl
  · rintro ⟨k, c, i, e, hc⟩
    obtain ⟨h0, h1⟩ := extPpf he (hp k c)
    by_cases hz : ∃ b, pdf k c b ≠ 0
    · obtain ⟨P, hP, _⟩ := h1 hz
      rw [hP] at hc; cases hc
    · push Not at hz
      rw [h0 hz] at hc; cases hc

theorem griddata_strict {N M : ℕ} {g : GridWeights N} (hg : ConvexWeights g) {l : List (Fin N × ℝ)} (hl : g = some l) (P : Fin N → Fin (M + 2) → ℝ)
    (hP : ∀ e ∈ l, StrictMono (P e.1)) (values : Fin (M + 2) → Fin N → FV ℝ) (hv : ∀ e ∈ l, ∀ i, values i e.1 = .fin (P e.1 i)) :
    (∀ i, griddataAt g (values i) = .fin (l.map fun e => e.2 * P e.1 i).sum) ∧ StrictMono fun i => (l.map fun e => e.2 * P e.1 i).sum := by
  obtain ⟨h1, h2⟩ := hg l hl
  refine ⟨fun i => ?_, ?_⟩
  · unfold griddataAt
    rw [hl]
    simp only
    have : (l.map fun e => FV.fin e.2 * values i e.1) = (l.map fun e => e.2 * P e.1 i).map FV.fin := by
      rw [List.map_map]
      apply List.map_congr_left
      intro e he
      rw [hv e he i]; rfl
    rw [this, fsum_fin]
  · intro a b hab
    obtain ⟨e, he, hpos⟩ : ∃ e ∈ l, 0 < e.2 := by
      by_contra hc
      push Not at hc
      have hz : (l.map Prod.snd).sum = 0 := by
        apply List.sum_eq_zero
        intro x hx
        obtain ⟨e, he, rfl⟩ := List.mem_map.mp hx
        exact le_antisymm (hc e he) (h1 e he)
      rw [hz] at h2; norm_num at h2
    refine List.sum_lt_sum _ _ (fun e he => mul_le_mul_of_nonneg_left ((hP e he).monotone hab.le) (h1 e he)) ⟨e, he, ?_⟩
    exact mul_lt_mul_of_pos_left (hP e he hab) hpos

/-- the interpolation of one cell without empty templates -/
theorem quantileCell_formula {N n : ℕ} {norm : Normalization} {edges : Fin (n + 2) → ℝ} (he : GoodEdges norm edges) (p : Fin N → Fin (n + 1) → ℝ) (hp : ∀ k b, 0 ≤ p k b) (M : ℕ)
    {g : GridWeights N} (hg : ConvexWeights g) {l : List (Fin N × ℝ)} (hl : g = some l) (hne : ∀ e ∈ l, ∃ b, p e.1 b ≠ 0) :
    ∃ (P : Fin N → ℝ → ℝ) (v : Fin (n + 1) → ℝ), (∀ e ∈ l, IsQuantileFunction norm edges (p e.1) (P e.1)) ∧ (∀ b, 0 ≤ v b) ∧
      (∀ b, DensityAt (fun i => (l.map fun e => e.2 * P e.1 (quantileGrid M i)).sum) (quantileGrid M) (edges b.castSucc) (v b)) ∧
      quantileCell norm edges p M g = fun b => FV.nanToNum0 (normPdf norm edges (fun b => .fin (v b)) b) := by
  classical
  have hP : ∀ k : Fin N, ∃ P : ℝ → ℝ, (∃ b, p k b ≠ 0) →
      (∀ q, ppfValue (binMid (extEdges edges)) (cdfValues norm (extEdges edges) (extPdf (p k))) q = .ok (.fin (P q))) ∧ IsQuantileFunction norm edges (p k) P := by
    intro k
    by_cases hk : ∃ b, p k b ≠ 0
    · obtain ⟨P, hP⟩ := (extPpf he (hp k)).2 hk
      exact ⟨P, fun _ => hP⟩
    · exact ⟨id, fun h => absurd h hk⟩
  choose P hP using hP
  obtain ⟨hQ, hQm⟩ := griddata_strict hg hl (fun k (i : Fin (M + 2)) => P k (quantileGrid M i))
    (fun e hel a b hab => (hP e.1 (hne e hel)).2.strict ((quantileGrid_strict M).2 a) ((quantileGrid_strict M).2 b) ((quantileGrid_strict M).1 hab))
    (fun i k => okOr .nan (ppfValue (binMid (extEdges edges)) (cdfValues norm (extEdges edges) (extPdf (p k))) (quantileGrid M i)))
    (fun e hel i => by rw [(hP e.1 (hne e hel)).1]; rfl)
  have hv := fun b : Fin (n + 1) => pdfFromPpf_nonneg hQm (quantileGrid_strict M).1 (edges b.castSucc)
  choose v hv1 hv2 hv3 using hv
  refine ⟨P, v, fun e hel => (hP e.1 (hne e hel)).2, hv2, hv3, ?_⟩
  unfold quantileCell
  simp only [hQ, hv1]

/-- the interpolation of one cell is a PDF or zero -/
theorem quantileCell_spec {N n : ℕ} {norm : Normalization} {edges : Fin (n + 2) → ℝ} (he : GoodEdges norm edges) (p : Fin N → Fin (n + 1) → ℝ) (hp : ∀ k b, 0 ≤ p k b) (M : ℕ)
    (g : GridWeights N) (hg : ConvexWeights g) :
    IsPdfOrZero norm edges (quantileCell norm edges p M g) ∧
    ((g = none ∨ ∃ l, g = some l ∧ ∃ e ∈ l, ∀ b, p e.1 b = 0) → ∀ b, quantileCell norm edges p M g b = .fin 0) := by
  have hzero : (g = none ∨ ∃ l, g = some l ∧ ∃ e ∈ l, ∀ b, p e.1 b = 0) → ∀ b, quantileCell norm edges p M g b = .fin 0 := by
    intro hz b
    have hnan : (fun i => griddataAt g fun k => okOr .nan (ppfValue (binMid (extEdges edges)) (cdfValues norm (extEdges edges) (extPdf (p k))) (quantileGrid M i))) = fun _ => FV.nan := by
      funext i
      rcases hz with rfl | ⟨l, rfl, e, hel, hz⟩
      · rfl
      · unfold griddataAt
        simp only
        apply fsum_nan
        rw [List.mem_map]
        refine ⟨e, hel, ?_⟩
        rw [(extPpf he (hp e.1)).1 hz]
        simp [okOr]
    unfold quantileCell
    rw [hnan]
    simp only [pdfFromPpf_nan]
    unfold normPdf
    rw [fsum_ofFn]
    simp [FV.bne, beq_fin, FV.nanToNum0]
  refine ⟨?_, hzero⟩
  by_cases hz : g = none ∨ ∃ l, g = some l ∧ ∃ e ∈ l, ∀ b, p e.1 b = 0
  · exact ⟨fun _ => 0, hzero hz, fun _ => le_rfl, Or.inr fun _ => rfl⟩
  · push Not at hz
    obtain ⟨l, hl⟩ : ∃ l, g = some l := by
      cases hgc : g with
      | none => exact absurd hgc hz.1
      | some l => exact ⟨l, rfl⟩
    obtain ⟨P, v, -, hv, -, hcell⟩ := quantileCell_formula he p hp M hg hl (hz.2 l hl)
    rw [hcell]
    exact normPdf_spec he v hv

/-- **C59** For templates >= 0 on strictly increasing edges, every number of bins, cells and grid points, a quantile resolution that gives at least two quantiles and
convex griddata weights, the quantile interpolation succeeds; every cell of the result is nonnegative and integrates to one, or is all zero; it is all zero if
griddata uses an empty template or the target is outside the hull. -/
theorem C59_quantile_interpolation {N n : ℕ} {C : Type*} {norm : Normalization} {edges : Fin (n + 2) → ℝ} (he : GoodEdges norm edges) (pdf : Fin N → C → Fin (n + 1) → ℝ)
    (hp : ∀ k c b, 0 ≤ pdf k c b) (res : ℝ) (hr0 : res ≠ 0) (hr : 2 ≤ npRound (1 / res)) (g : GridWeights N) (hg : ConvexWeights g) :
    ∃ r, quantileInterpolate norm edges pdf res g = .ok r ∧ ∀ c, IsPdfOrZero norm edges (r c) ∧
      ((g = none ∨ ∃ l, g = some l ∧ ∃ e ∈ l, ∀ b, pdf e.1 c b = 0) → ∀ b, r c b = .fin 0) :=
  ⟨_, quantile_eq he pdf hp res hr0 hr g, fun c => quantileCell_spec he (fun k => pdf k c) (hp · c) _ g hg⟩

end Pyirf.Interpolation
