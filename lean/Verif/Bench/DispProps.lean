import Verif.Bench.BiasProps
import Mathlib.Algebra.BigOperators.Fin

/-! # Properties C47, C90: bias and resolution from an energy dispersion -/
set_option linter.unusedSectionVars false
set_option linter.unusedSimpArgs false

namespace Pyirf.Bench
open Pyirf Pyirf.Np

/-! ## `np.interp` with nodes that need not be distinct -/

/-- What `interpGo` returns, for a point not below the first node. -/
theorem interpGo_cases (nodes : List (ℝ × ℝ)) (x : ℝ) (hn : nodes ≠ []) (hx : (nodes.head hn).1 ≤ x) :
    ∃ v, interpGo (finNodes nodes) (.fin x) = .fin v ∧
      ((∃ (j : ℕ) (hj : j + 1 < nodes.length), nodes[j].1 ≤ x ∧ x < nodes[j + 1].1 ∧
        v = (nodes[j + 1].2 - nodes[j].2) / (nodes[j + 1].1 - nodes[j].1) * (x - nodes[j].1) + nodes[j].2) ∨
       ((nodes.getLast hn).1 ≤ x ∧ v = (nodes.getLast hn).2)) := by
  induction nodes with
  | nil => exact absurd rfl hn
  | cons a l ih =>
    rcases l with _ | ⟨b, l⟩
    · refine ⟨a.2, ?_, Or.inr ⟨hx, rfl⟩⟩
      simp [finNodes, interpGo]
    · simp only [finNodes, List.map_cons] at ih ⊢
      unfold interpGo
      simp only [List.head_cons] at hx
      by_cases hb : x < b.1
      · refine ⟨(b.2 - a.2) / (b.1 - a.1) * (x - a.1) + a.2, ?_, Or.inl ⟨0, by simp, by simpa using hx, by simpa using hb, by simp⟩⟩
        simp only [FV.lt_fin, hb, decide_true, if_true]
        split
        · next heq =>
          rw [FV.beq_iff] at heq
          have : x = a.1 := by simpa using heq.1
          rw [this]; simp
        · have : b.1 - a.1 ≠ 0 := by linarith
          exact interpSegment_fin _ _ _ this
      · obtain ⟨v, e, h⟩ := ih (by simp) (by simpa using not_lt.mp hb)
        refine ⟨v, ?_, ?_⟩
        · simp only [FV.lt_fin, hb, decide_false]
          exact e
        · rcases h with ⟨j, hj, h1, h2, h3⟩ | ⟨h1, h2⟩
          · exact Or.inl ⟨j + 1, by simpa using hj, by simpa using h1, by simpa using h2, by simpa using h3⟩
          · exact Or.inr ⟨by simpa using h1, by simpa using h2⟩

/-- What `np.interp` returns. -/
theorem interp_cases (nodes : List (ℝ × ℝ)) (x : ℝ) (hn : nodes ≠ []) :
    ∃ v, interp (finNodes nodes) (.fin x) = .fin v ∧
      ((x < (nodes.head hn).1 ∧ v = (nodes.head hn).2) ∨
       (∃ (j : ℕ) (hj : j + 1 < nodes.length), nodes[j].1 ≤ x ∧ x < nodes[j + 1].1 ∧
        v = (nodes[j + 1].2 - nodes[j].2) / (nodes[j + 1].1 - nodes[j].1) * (x - nodes[j].1) + nodes[j].2) ∨
       ((nodes.getLast hn).1 ≤ x ∧ v = (nodes.getLast hn).2)) := by
  rcases nodes with _ | ⟨a, l⟩
  · exact absurd rfl hn
  · unfold interp
    simp only [finNodes, List.map_cons, FV.isNan_fin, Bool.false_eq_true, if_false, FV.lt_fin, List.head_cons]
    by_cases hx : x < a.1
    · refine ⟨a.2, by simp [hx], Or.inl ⟨hx, rfl⟩⟩
    · obtain ⟨v, e, h⟩ := interpGo_cases (a :: l) x hn (by simpa using not_lt.mp hx)
      refine ⟨v, ?_, Or.inr h⟩
      simp only [hx, decide_false]
      exact e

/-! ## Specification -/

/-- Probability below the migration `x`, for a density constant in each bin: each bin contributes its density times the length of its part below `x`. -/
noncomputable def contentBelow {m : ℕ} (d : Fin m → ℝ) (mig : Fin (m + 1) → ℝ) (x : ℝ) : ℝ :=
  ∑ b : Fin m, d b * max 0 (min (x - mig b.castSucc) (mig b.succ - mig b.castSucc))

/-- Total probability of the column. -/
def total {m : ℕ} (d : Fin m → ℝ) (mig : Fin (m + 1) → ℝ) : ℝ := ∑ b : Fin m, d b * (mig b.succ - mig b.castSucc)

/-! ## Lemmas -/

/-- the nodes of the interpolation -/
noncomputable def cdfNodes {m : ℕ} (d : Fin m → ℝ) (mig : Fin (m + 1) → ℝ) : List (ℝ × ℝ) := List.ofFn fun b : Fin m => (columnCdf d mig b, mig b.succ)

theorem finNodes_cdf {m : ℕ} (d : Fin m → ℝ) (mig : Fin (m + 1) → ℝ) :
    List.ofFn (fun b : Fin m => (FV.fin (columnCdf d mig b), FV.fin (mig b.succ))) = finNodes (cdfNodes d mig) := by
  unfold finNodes cdfNodes
  rw [List.map_ofFn]
  rfl

theorem columnCdf_mono {m : ℕ} {d : Fin m → ℝ} {mig : Fin (m + 1) → ℝ} (hd : ∀ b, 0 ≤ d b) (hm : StrictMono mig) {a b : Fin m} (h : a ≤ b) :
    columnCdf d mig a ≤ columnCdf d mig b := by
  unfold columnCdf
  apply Finset.sum_le_sum
  intro c _
  have hw : 0 ≤ d c * (mig c.succ - mig c.castSucc) := mul_nonneg (hd c) (sub_nonneg.mpr (hm Fin.castSucc_lt_succ).le)
  have h' : a.val ≤ b.val := h
  by_cases h1 : c.val ≤ a.val
  · rw [if_pos h1, if_pos (h1.trans h')]
  · rw [if_neg h1]
    split <;> simp [hw]

theorem columnCdf_eq_content {m : ℕ} {d : Fin m → ℝ} {mig : Fin (m + 1) → ℝ} (hm : StrictMono mig) (b : Fin m) :
    columnCdf d mig b = contentBelow d mig (mig b.succ) := by
  unfold columnCdf contentBelow
  apply Finset.sum_congr rfl
  intro c _
  have hw : mig c.castSucc < mig c.succ := hm Fin.castSucc_lt_succ
  by_cases h : c.val ≤ b.val
  · rw [if_pos h]
    have : mig c.succ ≤ mig b.succ := hm.monotone (Fin.succ_le_succ_iff.mpr h)
    rw [min_eq_right (by linarith), max_eq_right (by linarith)]
  · rw [if_neg h]
    have : mig b.succ ≤ mig c.castSucc := hm.monotone (by rw [Fin.le_def]; simp; omega)
    rw [min_eq_left (by linarith), max_eq_left (by linarith), mul_zero]

theorem content_in_bin {m : ℕ} {d : Fin m → ℝ} {mig : Fin (m + 1) → ℝ} (hm : StrictMono mig) (b b' : Fin m) (hb : b'.val = b.val + 1) (x : ℝ)
    (h1 : mig b.succ ≤ x) (h2 : x ≤ mig b'.succ) : contentBelow d mig x = columnCdf d mig b + d b' * (x - mig b.succ) := by
  have hbb : b'.castSucc = b.succ := by ext; simp [hb]
  rw [columnCdf_eq_content hm]
  unfold contentBelow
  rw [← Finset.add_sum_erase _ _ (Finset.mem_univ b'), ← Finset.add_sum_erase _ (fun c => d c * max 0 (min (mig b.succ - mig c.castSucc) (mig c.succ - mig c.castSucc)))
    (Finset.mem_univ b')]
  rw [hbb]
  have e1 : max 0 (min (x - mig b.succ) (mig b'.succ - mig b.succ)) = x - mig b.succ := by
    rw [min_eq_left (by linarith), max_eq_right (by linarith)]
  have e2 : max 0 (min (mig b.succ - mig b.succ) (mig b'.succ - mig b.succ)) = 0 := by
    rw [min_eq_left (by linarith), sub_self, max_self]
  rw [e1, e2, mul_zero, zero_add, add_comm]
  congr 1
  apply Finset.sum_congr rfl
  intro c hc
  have hcb : c ≠ b' := (Finset.mem_erase.mp hc).1
  have hw : mig c.castSucc < mig c.succ := hm Fin.castSucc_lt_succ
  congr 1
  by_cases h : c.val ≤ b.val
  · have : mig c.succ ≤ mig b.succ := hm.monotone (Fin.succ_le_succ_iff.mpr h)
    rw [min_eq_right (by linarith), min_eq_right (by linarith)]
  · have hc2 : b'.val < c.val := by
      have : c.val ≠ b'.val := fun hh => hcb (Fin.ext hh)
      omega
    have : mig b'.succ ≤ mig c.castSucc := hm.monotone (by rw [Fin.le_def]; simp; omega)
    rw [min_eq_left (by linarith), min_eq_left (by linarith), max_eq_left (by linarith), max_eq_left (by linarith)]

theorem columnCdf_last {m : ℕ} (d : Fin (m + 1) → ℝ) (mig : Fin (m + 1 + 1) → ℝ) : columnCdf d mig (Fin.last m) = total d mig := by
  unfold columnCdf total
  apply Finset.sum_congr rfl
  intro c _
  rw [if_pos (by simp; omega)]

/-- the interpolation of a column, for any value -/
theorem column_interp {m : ℕ} {d : Fin (m + 1) → ℝ} {mig : Fin (m + 1 + 1) → ℝ} (hm : StrictMono mig) (x : ℝ) :
    ∃ v, interp (finNodes (cdfNodes d mig)) (.fin x) = .fin v ∧ mig 1 ≤ v ∧ v ≤ mig (Fin.last (m + 1)) ∧
      ((x < columnCdf d mig 0 ∧ v = mig 1) ∨
       (∃ b b' : Fin (m + 1), b'.val = b.val + 1 ∧ columnCdf d mig b ≤ x ∧ x < columnCdf d mig b' ∧ mig b.succ ≤ v ∧ v ≤ mig b'.succ ∧
         v = (mig b'.succ - mig b.succ) / (columnCdf d mig b' - columnCdf d mig b) * (x - columnCdf d mig b) + mig b.succ) ∨
       (total d mig ≤ x ∧ v = mig (Fin.last (m + 1)))) := by
  have hlen : (cdfNodes d mig).length = m + 1 := by simp [cdfNodes]
  have hn : cdfNodes d mig ≠ [] := by intro h; rw [h] at hlen; simp at hlen
  obtain ⟨v, e, h⟩ := interp_cases (cdfNodes d mig) x hn
  have hget : ∀ (j : ℕ) (hj : j < (cdfNodes d mig).length), (cdfNodes d mig)[j] = (columnCdf d mig ⟨j, by omega⟩, mig (Fin.succ ⟨j, by omega⟩)) := by
    intro j hj
    exact List.getElem_ofFn (f := fun b : Fin (m + 1) => (columnCdf d mig b, mig b.succ)) hj
  have hhead : (cdfNodes d mig).head hn = (columnCdf d mig 0, mig 1) := by
    rw [List.head_eq_getElem, hget]; rfl
  have hlast : (cdfNodes d mig).getLast hn = (total d mig, mig (Fin.last (m + 1))) := by
    rw [List.getLast_eq_getElem, hget, ← columnCdf_last]
    simp only [hlen, Nat.add_sub_cancel]
    rfl
  refine ⟨v, e, ?_⟩
  rcases h with ⟨h1, h2⟩ | ⟨j, hj, h1, h2, h3⟩ | ⟨h1, h2⟩
  · rw [hhead] at h1 h2
    refine ⟨h2.ge, ?_, Or.inl ⟨h1, h2⟩⟩
    rw [h2]; exact hm.monotone (Fin.le_last _)
  · have hj0 : j < (cdfNodes d mig).length := by omega
    rw [hget j hj0] at h1 h3
    rw [hget (j + 1) hj] at h2 h3
    simp only [] at h1 h2 h3
    set b : Fin (m + 1) := ⟨j, by omega⟩ with hb
    set b' : Fin (m + 1) := ⟨j + 1, by omega⟩ with hb'
    have hgap : 0 < columnCdf d mig b' - columnCdf d mig b := by linarith
    have hmig : mig b.succ < mig b'.succ := hm (by rw [Fin.lt_def]; simp [hb, hb'])
    have hlo : mig b.succ ≤ v := by
      rw [h3]
      have : 0 ≤ (mig b'.succ - mig b.succ) / (columnCdf d mig b' - columnCdf d mig b) * (x - columnCdf d mig b) :=
        mul_nonneg (div_nonneg (by linarith) hgap.le) (by linarith)
      linarith
    have hhi : v ≤ mig b'.succ := by
      rw [h3, div_mul_eq_mul_div]
      have : (mig b'.succ - mig b.succ) * (x - columnCdf d mig b) / (columnCdf d mig b' - columnCdf d mig b) ≤ mig b'.succ - mig b.succ := by
        rw [div_le_iff₀ hgap]
        exact mul_le_mul_of_nonneg_left (by linarith) (by linarith)
      linarith
    refine ⟨?_, ?_, Or.inr (Or.inl ⟨b, b', rfl, h1, h2, hlo, hhi, h3⟩)⟩
    · refine le_trans (hm.monotone ?_) hlo
      rw [Fin.le_def]; simp [hb]
    · exact hhi.trans (hm.monotone (Fin.le_last _))
  · rw [hlast] at h1 h2
    refine ⟨?_, h2.le, Or.inr (Or.inr ⟨h1, h2⟩)⟩
    rw [h2]; exact hm.monotone (Fin.le_last _)

theorem columnCdf_le_total {m : ℕ} {d : Fin (m + 1) → ℝ} {mig : Fin (m + 1 + 1) → ℝ} (hd : ∀ b, 0 ≤ d b) (hm : StrictMono mig) (b : Fin (m + 1)) :
    columnCdf d mig b ≤ total d mig := by
  rw [← columnCdf_last]
  exact columnCdf_mono hd hm (Fin.le_last _)

/-- monotone in the value -/
theorem column_interp_mono {m : ℕ} {d : Fin (m + 1) → ℝ} {mig : Fin (m + 1 + 1) → ℝ} (hd : ∀ b, 0 ≤ d b) (hm : StrictMono mig) {x y v w : ℝ} (hxy : x ≤ y)
    (hv : interp (finNodes (cdfNodes d mig)) (.fin x) = .fin v) (hw : interp (finNodes (cdfNodes d mig)) (.fin y) = .fin w) : v ≤ w := by
  obtain ⟨v', ev, v1, v2, hv'⟩ := column_interp (d := d) hm x
  obtain ⟨w', ew, w1, w2, hw'⟩ := column_interp (d := d) hm y
  have e1 : v' = v := by simpa using ev.symm.trans hv
  have e2 : w' = w := by simpa using ew.symm.trans hw
  subst e1; subst e2
  rcases hv' with ⟨-, h⟩ | ⟨b, b', hb, h1, h2, h3, h4, h5⟩ | ⟨h1, h2⟩
  · rw [h]; exact w1
  · rcases hw' with ⟨k1, -⟩ | ⟨c, c', hc, k1, k2, k3, k4, k5⟩ | ⟨-, k2⟩
    · have := columnCdf_mono hd hm (Fin.zero_le b)
      linarith
    · by_cases hbc : b = c
      · subst hbc
        have : b' = c' := Fin.ext (by omega)
        subst this
        rw [h5, k5]
        have hgap : 0 < columnCdf d mig b' - columnCdf d mig b := by linarith
        have hmig : mig b.succ ≤ mig b'.succ := h3.trans h4
        have := mul_le_mul_of_nonneg_left (sub_le_sub_right hxy (columnCdf d mig b))
          (div_nonneg (sub_nonneg.mpr hmig) hgap.le)
        linarith
      · have hlt : b.val < c.val := by
          by_contra hcon
          have hcb : c'.val ≤ b.val := by
            have : c.val ≠ b.val := fun hh => hbc (Fin.ext hh.symm)
            omega
          have := columnCdf_mono hd hm (show c' ≤ b from hcb)
          linarith
        have : mig b'.succ ≤ mig c.succ := hm.monotone (Fin.succ_le_succ_iff.mpr (by rw [Fin.le_def]; omega))
        linarith
    · rw [k2]; exact v2
  · rcases hw' with ⟨k1, -⟩ | ⟨c, c', hc, k1, k2, k3, k4, k5⟩ | ⟨-, k2⟩
    · have := columnCdf_le_total hd hm 0
      linarith
    · have := columnCdf_le_total hd hm c'
      linarith
    · rw [h2, k2]

/-- the interpolated point has the asked content below it, if the value is not below the content of the first bin and not above the total -/
theorem column_interp_content {m : ℕ} {d : Fin (m + 1) → ℝ} {mig : Fin (m + 1 + 1) → ℝ} (hm : StrictMono mig) {x v : ℝ}
    (hv : interp (finNodes (cdfNodes d mig)) (.fin x) = .fin v) (h0 : columnCdf d mig 0 ≤ x) (h1 : x ≤ total d mig) : contentBelow d mig v = x := by
  obtain ⟨v', ev, v1, v2, hv'⟩ := column_interp (d := d) hm x
  have e1 : v' = v := by simpa using ev.symm.trans hv
  subst e1
  rcases hv' with ⟨h, -⟩ | ⟨b, b', hb, k1, k2, k3, k4, k5⟩ | ⟨k1, k2⟩
  · linarith
  · rw [content_in_bin hm b b' hb v' k3 k4, k5]
    have hgap : columnCdf d mig b' - columnCdf d mig b ≠ 0 := by linarith
    have hcdf : columnCdf d mig b' = columnCdf d mig b + d b' * (mig b'.succ - mig b.succ) := by
      rw [columnCdf_eq_content hm b']
      exact content_in_bin hm b b' hb _ (k3.trans k4) le_rfl
    have hd : columnCdf d mig b' - columnCdf d mig b = d b' * (mig b'.succ - mig b.succ) := by linarith
    rw [add_sub_cancel_right]
    have : d b' * ((mig b'.succ - mig b.succ) / (columnCdf d mig b' - columnCdf d mig b) * (x - columnCdf d mig b)) =
        (d b' * (mig b'.succ - mig b.succ)) / (columnCdf d mig b' - columnCdf d mig b) * (x - columnCdf d mig b) := by ring
    rw [this, ← hd, div_self hgap]
    ring
  · rw [k2]
    have : mig (Fin.last (m + 1)) = mig (Fin.last m).succ := rfl
    rw [this, ← columnCdf_eq_content hm, columnCdf_last]
    linarith

theorem cdf_zero_iff {m : ℕ} {d : Fin m → ℝ} {mig : Fin (m + 1) → ℝ} (hd : ∀ b, 0 ≤ d b) (hm : StrictMono mig) :
    (∀ b, columnCdf d mig b = 0) ↔ ∀ b, d b = 0 := by
  constructor
  · intro h b
    have hw : ∀ c : Fin m, 0 < mig c.succ - mig c.castSucc := fun c => sub_pos.mpr (hm Fin.castSucc_lt_succ)
    have := h b
    unfold columnCdf at this
    rw [Finset.sum_eq_zero_iff_of_nonneg] at this
    · have := this b (Finset.mem_univ b)
      rw [if_pos le_rfl, mul_eq_zero] at this
      exact this.resolve_right (hw b).ne'
    · intro c _
      split
      · exact mul_nonneg (hd c) (hw c).le
      · exact le_rfl
  · intro h b
    unfold columnCdf
    apply Finset.sum_eq_zero
    intro c _
    simp [h c]

/-! ## C47 -/

/-- **C47** For every dispersion matrix with nonnegative entries and increasing migration edges: a column without content (all entries zero) has NaN bias and
resolution; any other column has a finite bias and a finite resolution, the resolution is not negative and `bias + 1` lies
between the second and the last migration edge. -/
theorem C47_dispersion {n m k : ℕ} (d : Fin n → Fin m → Fin k → ℝ) (mig : Fin (m + 1) → ℝ) (hd : ∀ i a j, 0 ≤ d i a j) (hm : StrictMono mig) (i : Fin n)
    (j : Fin k) :
    ((∀ a, d i a j = 0) → (biasFromDispersion d mig).1 i j = .nan ∧ (biasFromDispersion d mig).2 i j = .nan) ∧
    ((∃ a, d i a j ≠ 0) → ∃ b r, (biasFromDispersion d mig).1 i j = .fin b ∧ (biasFromDispersion d mig).2 i j = .fin r ∧ 0 ≤ r ∧
      (∀ e : Fin (m + 1), e.val = 1 → mig e ≤ b + 1) ∧ b + 1 ≤ mig (Fin.last m)) := by
  have hz := cdf_zero_iff (fun a => hd i a j) hm
  constructor
  · intro h
    simp only [biasFromDispersion, columnBias]
    rw [if_pos (hz.mpr h)]
    exact ⟨rfl, rfl⟩
  · rintro ⟨a, ha⟩
    have hnz : ¬ ∀ b, columnCdf (fun a => d i a j) mig b = 0 := fun h => ha (hz.mp h a)
    rcases m with _ | m
    · exact a.elim0
    · simp only [biasFromDispersion, columnBias]
      rw [if_neg hnz, finNodes_cdf]
      obtain ⟨lo, e1, -⟩ := column_interp (d := fun a => d i a j) hm normLowerSigma
      obtain ⟨me, e2, m1, m2, -⟩ := column_interp (d := fun a => d i a j) hm (1 / 2)
      obtain ⟨up, e3, -⟩ := column_interp (d := fun a => d i a j) hm normUpperSigma
      rw [e1, e2, e3]
      refine ⟨me - 1, 0.5 * (up - lo), by simp, by simp, ?_, ?_, by simpa using m2⟩
      · have := column_interp_mono (fun a => hd i a j) hm norm_le e1 e3
        linarith
      · intro e he
        have : e = 1 := by ext; simp [he]
        rw [this]; simpa using m1

/-! ## C90 -/

open MeasureTheory ProbabilityTheory in
/-- `Φ(-1) <= 1/2 <= Φ(1)` -/
theorem norm_half : normLowerSigma ≤ 1 / 2 ∧ 1 / 2 ≤ normUpperSigma := by
  unfold normLowerSigma normUpperSigma
  rw [cdf_eq_real, cdf_eq_real]
  set μ := gaussianReal 0 1
  have hsymm : μ.real (Set.Ici 1) = μ.real (Set.Iic (-1)) := by
    have h : μ.map (fun x => -x) = μ := by
      have := gaussianReal_map_neg (μ := 0) (v := 1)
      simpa using this
    have h2 : (μ.map (fun x => -x)).real (Set.Iic (-1)) = μ.real ((fun x => -x) ⁻¹' Set.Iic (-1)) :=
      map_measureReal_apply measurable_neg measurableSet_Iic
    have h3 : (fun x : ℝ => -x) ⁻¹' Set.Iic (-1) = Set.Ici 1 := by ext x; simp
    rw [h, h3] at h2
    exact h2.symm
  have hlow : μ.real (Set.Iic (-1)) + μ.real (Set.Ici 1) ≤ 1 := by
    rw [← measureReal_union (by
      rw [Set.disjoint_left]; intro x hx hx'; simp only [Set.mem_Iic, Set.mem_Ici] at hx hx'; linarith) measurableSet_Ici]
    exact measureReal_le_one
  have hup : 1 ≤ μ.real (Set.Iic 1) + μ.real (Set.Ici 1) := by
    have : (Set.univ : Set ℝ) = Set.Iic 1 ∪ Set.Ici 1 := by ext x; simp [le_total]
    have h := measureReal_union_le (μ := μ) (Set.Iic (1:ℝ)) (Set.Ici 1)
    rw [← this, probReal_univ] at h
    exact h
  constructor <;> linarith

/-- The claim of **C90**: for a normalized column, half the probability lies below the migration `bias + 1`. -/
def BiasIsMedian : Prop :=
  ∀ (m : ℕ) (d : Fin 1 → Fin m → Fin 1 → ℝ) (mig : Fin (m + 1) → ℝ), (∀ a, 0 ≤ d 0 a 0) → StrictMono mig → total (fun a => d 0 a 0) mig = 1 →
    ∃ b, (biasFromDispersion d mig).1 0 0 = .fin b ∧ contentBelow (fun a => d 0 a 0) mig (b + 1) = 1 / 2

theorem contentBelow_mono {m : ℕ} {d : Fin m → ℝ} {mig : Fin (m + 1) → ℝ} (hd : ∀ b, 0 ≤ d b) {x y : ℝ} (h : x ≤ y) :
    contentBelow d mig x ≤ contentBelow d mig y := by
  unfold contentBelow
  apply Finset.sum_le_sum
  intro b _
  exact mul_le_mul_of_nonneg_left (max_le_max le_rfl (min_le_min (by linarith) le_rfl)) (hd b)

/-- `w` is the largest migration in the range that has at most the probability `x` below it. -/
def IsQuantile {m : ℕ} (d : Fin m → ℝ) (mig : Fin (m + 1) → ℝ) (x w : ℝ) : Prop :=
  IsGreatest {y | mig 0 ≤ y ∧ y ≤ mig (Fin.last m) ∧ contentBelow d mig y ≤ x} w

/-- the interpolated point is the quantile, but never below the upper edge of the first bin -/
theorem column_interp_quantile {m : ℕ} {d : Fin (m + 1) → ℝ} {mig : Fin (m + 1 + 1) → ℝ} (hd : ∀ b, 0 ≤ d b) (hm : StrictMono mig) {x w : ℝ}
    (hw : IsQuantile d mig x w) : interp (finNodes (cdfNodes d mig)) (.fin x) = .fin (max (mig 1) w) := by
  obtain ⟨v, ev, v1, v2, hv⟩ := column_interp (d := d) hm x
  obtain ⟨⟨w0, w1, w2⟩, wmax⟩ := hw
  rw [ev]
  congr 1
  have hfirst : columnCdf d mig 0 = contentBelow d mig (mig 1) := columnCdf_eq_content hm 0
  rcases hv with ⟨h, rfl⟩ | ⟨b, b', hb, k1, k2, k3, k4, k5⟩ | ⟨k1, k2⟩
  · rw [max_eq_left]
    by_contra hc
    have := contentBelow_mono (mig := mig) hd (not_le.mp hc).le
    rw [← hfirst] at this
    linarith
  · have hx : contentBelow d mig v = x := by
      apply column_interp_content hm ev _ (k2.le.trans (columnCdf_le_total hd hm b'))
      exact (columnCdf_mono hd hm (Fin.zero_le b)).trans k1
    have hvw : v ≤ w := wmax ⟨(hm.monotone (Fin.zero_le _)).trans v1, v2, hx.le⟩
    have hwv : w ≤ v := by
      by_contra hc
      rw [not_le] at hc
      have hcb : contentBelow d mig (mig b'.succ) = columnCdf d mig b' := (columnCdf_eq_content hm b').symm
      have hlt : v < mig b'.succ := by
        rcases k4.lt_or_eq with h | h
        · exact h
        · rw [h, hcb] at hx; linarith
      have hdb : 0 < d b' := by
        have := content_in_bin (d := d) hm b b' hb (mig b'.succ) (k3.trans k4) le_rfl
        rw [hcb] at this
        rcases (hd b').lt_or_eq with h | h
        · exact h
        · rw [← h, zero_mul, add_zero] at this; linarith
      have hz : v < min w (mig b'.succ) := lt_min hc hlt
      have e1 := content_in_bin (d := d) hm b b' hb v k3 k4
      have e2 := content_in_bin (d := d) hm b b' hb (min w (mig b'.succ)) (k3.trans hz.le) (min_le_right _ _)
      have e3 := contentBelow_mono (mig := mig) hd (min_le_left w (mig b'.succ))
      have : d b' * (v - mig b.succ) < d b' * (min w (mig b'.succ) - mig b.succ) := mul_lt_mul_of_pos_left (by linarith) hdb
      linarith
    have hw1 := le_antisymm hvw hwv
    rw [← hw1, max_eq_right v1]
  · have hc : contentBelow d mig (mig (Fin.last (m + 1))) ≤ x := by
      have : mig (Fin.last (m + 1)) = mig (Fin.last m).succ := rfl
      rw [this, ← columnCdf_eq_content hm, columnCdf_last]
      exact k1
    have hl : mig (Fin.last (m + 1)) ≤ w := wmax ⟨hm.monotone (Fin.zero_le _), le_rfl, hc⟩
    rw [k2, le_antisymm w1 hl, max_eq_right (hm.monotone (Fin.le_last _))]

/-- the quantile exists for every probability that is not negative -/
theorem exists_quantile {m : ℕ} {d : Fin m → ℝ} {mig : Fin (m + 1) → ℝ} (hm : StrictMono mig) {x : ℝ} (hx : 0 ≤ x) : ∃ w, IsQuantile d mig x w := by
  have hcont : Continuous (contentBelow d mig) := by
    unfold contentBelow
    fun_prop
  have hclosed : IsCompact {y | mig 0 ≤ y ∧ y ≤ mig (Fin.last m) ∧ contentBelow d mig y ≤ x} := by
    have : {y | mig 0 ≤ y ∧ y ≤ mig (Fin.last m) ∧ contentBelow d mig y ≤ x} = Set.Icc (mig 0) (mig (Fin.last m)) ∩ {y | contentBelow d mig y ≤ x} := by
      ext y; simp [and_assoc]
    rw [this]
    exact isCompact_Icc.inter_right (isClosed_le hcont continuous_const)
  refine hclosed.exists_isGreatest ⟨mig 0, le_rfl, hm.monotone (Fin.zero_le _), ?_⟩
  have : contentBelow d mig (mig 0) = 0 := by
    unfold contentBelow
    apply Finset.sum_eq_zero
    intro b _
    have : mig 0 ≤ mig b.castSucc := hm.monotone (Fin.zero_le _)
    rw [max_eq_left ((min_le_left _ _).trans (by linarith)), mul_zero]
  rw [this]; exact hx

theorem first_content {m : ℕ} (d : Fin (m + 1) → ℝ) {mig : Fin (m + 1 + 1) → ℝ} (hm : StrictMono mig) :
    contentBelow d mig (mig 1) = d 0 * (mig 1 - mig 0) := by
  have h : columnCdf d mig 0 = contentBelow d mig (mig 1) := columnCdf_eq_content hm 0
  rw [← h]
  unfold columnCdf
  rw [Fin.sum_univ_succ]
  simp

/-- **C90** Exact values for every column with content: with `low`, `median` and `high` the largest migrations that have at most `Φ(-1)`, 1/2 and `Φ(1)` of the
probability below them, the bias is `max(e, median) - 1` and the resolution half of `max(e, high) - max(e, low)`, where `e` is the upper
edge of the first migration bin. -/
theorem C90_values {n m k : ℕ} (d : Fin n → Fin (m + 1) → Fin k → ℝ) (mig : Fin (m + 1 + 1) → ℝ) (hm : StrictMono mig)
    (i : Fin n) (j : Fin k) (hne : ∃ a, d i a j ≠ 0) (hd : ∀ a, 0 ≤ d i a j) :
    ∃ low median high, IsQuantile (fun a => d i a j) mig normLowerSigma low ∧ IsQuantile (fun a => d i a j) mig (1 / 2) median ∧
      IsQuantile (fun a => d i a j) mig normUpperSigma high ∧
      (biasFromDispersion d mig).1 i j = .fin (max (mig 1) median - 1) ∧
      (biasFromDispersion d mig).2 i j = .fin ((max (mig 1) high - max (mig 1) low) / 2) := by
  have hz := cdf_zero_iff hd hm
  have hhalf := norm_half
  obtain ⟨a, ha⟩ := hne
  have hnz : ¬ ∀ b, columnCdf (fun a => d i a j) mig b = 0 := fun h => ha (hz.mp h a)
  obtain ⟨low, hl⟩ := exists_quantile (d := fun a => d i a j) hm normLower_nonneg
  obtain ⟨med, hmd⟩ := exists_quantile (d := fun a => d i a j) hm (show (0:ℝ) ≤ 1 / 2 by norm_num)
  obtain ⟨high, hh⟩ := exists_quantile (d := fun a => d i a j) hm (normLower_nonneg.trans norm_le)
  refine ⟨low, med, high, hl, hmd, hh, ?_⟩
  simp only [biasFromDispersion, columnBias]
  rw [if_neg hnz, finNodes_cdf, column_interp_quantile hd hm hl, column_interp_quantile hd hm hmd, column_interp_quantile hd hm hh]
  refine ⟨by simp, ?_⟩
  simp only [FV.fin_sub_fin, FV.fin_mul_fin]
  congr 1
  ring

/-- **C90** For a column that holds at least half: half the probability lies below the migration `bias + 1` exactly if the first migration bin holds at most half. -/
theorem C90_median_iff {n m k : ℕ} (d : Fin n → Fin (m + 1) → Fin k → ℝ) (mig : Fin (m + 1 + 1) → ℝ) (hm : StrictMono mig)
    (i : Fin n) (j : Fin k) (hd : ∀ a, 0 ≤ d i a j) (htot : 1 / 2 ≤ total (fun a => d i a j) mig) :
    ∃ b, (biasFromDispersion d mig).1 i j = .fin b ∧
      (contentBelow (fun a => d i a j) mig (b + 1) = 1 / 2 ↔ d i 0 j * (mig 1 - mig 0) ≤ 1 / 2) := by
  have hz := cdf_zero_iff hd hm
  have hnz : ¬ ∀ b, columnCdf (fun a => d i a j) mig b = 0 := fun h => by
    have := h (Fin.last m)
    rw [columnCdf_last] at this
    linarith
  simp only [biasFromDispersion, columnBias]
  rw [if_neg hnz, finNodes_cdf]
  obtain ⟨me, e2, m1, m2, hcase⟩ := column_interp (d := fun a => d i a j) hm (1 / 2)
  have hf := first_content (fun a => d i a j) hm
  have hc0 : columnCdf (fun a => d i a j) mig 0 = contentBelow (fun a => d i a j) mig (mig 1) := columnCdf_eq_content hm 0
  rw [e2]
  refine ⟨me - 1, by simp, ?_⟩
  rw [sub_add_cancel]
  constructor
  · intro h
    have := contentBelow_mono (mig := mig) hd m1
    rw [h, hf] at this
    exact this
  · intro h
    exact column_interp_content hm e2 (by rw [hc0, hf]; exact h) htot

/-- **C90** (the usual case) If the first migration bin holds at most the probability `Φ(-1)` and the column at least `Φ(1)`, then half the probability lies below the
migration `bias + 1`, and the resolution is half the distance of two migrations with `Φ(-1)` and `Φ(1)` below. -/
theorem C90_quantiles {n m k : ℕ} (d : Fin n → Fin (m + 1) → Fin k → ℝ) (mig : Fin (m + 1 + 1) → ℝ) (hm : StrictMono mig)
    (i : Fin n) (j : Fin k) (h0 : d i 0 j * (mig 1 - mig 0) ≤ normLowerSigma) (h1 : normUpperSigma ≤ total (fun a => d i a j) mig)
    (hne : ∃ a, d i a j ≠ 0) (hd : ∀ a, 0 ≤ d i a j) :
    ∃ b r lo up, (biasFromDispersion d mig).1 i j = .fin b ∧ (biasFromDispersion d mig).2 i j = .fin r ∧
      contentBelow (fun a => d i a j) mig (b + 1) = 1 / 2 ∧ contentBelow (fun a => d i a j) mig lo = normLowerSigma ∧
      contentBelow (fun a => d i a j) mig up = normUpperSigma ∧ r = (up - lo) / 2 := by
  have hz := cdf_zero_iff hd hm
  have hhalf := norm_half
  obtain ⟨a, ha⟩ := hne
  have hnz : ¬ ∀ b, columnCdf (fun a => d i a j) mig b = 0 := fun h => ha (hz.mp h a)
  simp only [biasFromDispersion, columnBias]
  rw [if_neg hnz, finNodes_cdf]
  obtain ⟨lo, e1, -⟩ := column_interp (d := fun a => d i a j) hm normLowerSigma
  obtain ⟨me, e2, m1, m2, -⟩ := column_interp (d := fun a => d i a j) hm (1 / 2)
  obtain ⟨up, e3, -⟩ := column_interp (d := fun a => d i a j) hm normUpperSigma
  have hc0 : columnCdf (fun a => d i a j) mig 0 ≤ normLowerSigma := by
    have : columnCdf (fun a => d i a j) mig 0 = d i 0 j * (mig 1 - mig 0) := by
      unfold columnCdf
      rw [Fin.sum_univ_succ]
      simp
    rw [this]; exact h0
  rw [e1, e2, e3]
  refine ⟨me - 1, 0.5 * (up - lo), lo, up, by simp, by simp, ?_, ?_, ?_, by ring⟩
  · rw [sub_add_cancel]
    exact column_interp_content hm e2 (hc0.trans hhalf.1) (hhalf.2.trans h1)
  · exact column_interp_content hm e1 hc0 (norm_le.trans h1)
  · exact column_interp_content hm e3 (hc0.trans norm_le) h1

/-- **C90** (deviation) The bias is not the median when the first bin holds more than half: a single bin [0, 2] has its median at migration 1, the bias is reported as 1 (migration 2). -/
theorem C90_bias_not_median : ¬ BiasIsMedian := by
  intro H
  have hm : StrictMono (![0, 2] : Fin 2 → ℝ) := by
    intro a b h
    fin_cases a <;> fin_cases b <;> simp_all
  obtain ⟨b, e, h⟩ := H 1 (fun _ _ _ => 1 / 2) ![0, 2] (fun _ => by norm_num) hm (by simp [total])
  simp only [biasFromDispersion, columnBias] at e
  rw [if_neg (by
    rw [cdf_zero_iff (fun _ => by norm_num) hm]
    intro h; have := h 0; norm_num at this), finNodes_cdf] at e
  obtain ⟨v, ev, v1, v2, -⟩ := column_interp (d := fun _ : Fin 1 => (1 / 2 : ℝ)) hm (1 / 2)
  rw [ev] at e
  have hv : v = 2 := le_antisymm (by simpa using v2) (by simpa using v1)
  have hb : b = 1 := by
    rw [hv] at e
    simp only [FV.fin_sub_fin, FV.fin.injEq] at e
    linarith
  rw [hb] at h
  unfold contentBelow at h
  rw [Fin.sum_univ_one] at h
  simp at h
  norm_num at h

/-! ## The hypotheses are satisfiable -/

/-- uniform density on four bins of [0, 4] -/
example : StrictMono (fun a : Fin 5 => (a.val : ℝ)) ∧ (∀ i a j, 0 ≤ (fun (_ : Fin 1) (_ : Fin 4) (_ : Fin 1) => (1 / 4 : ℝ)) i a j) ∧
    (∃ a, (fun (_ : Fin 1) (_ : Fin 4) (_ : Fin 1) => (1 / 4 : ℝ)) 0 a 0 ≠ 0) :=
  ⟨fun a b h => by simpa using h, fun _ _ _ => by norm_num, 0, by norm_num⟩

/-- the first bin may be empty, which meets the condition on it; the total is 1 -/
example : let d : Fin 1 → Fin 2 → Fin 1 → ℝ := fun _ a _ => a.val
    let mig : Fin 3 → ℝ := fun a => a.val
    d 0 0 0 * (mig 1 - mig 0) ≤ normLowerSigma ∧ normUpperSigma ≤ total (fun a => d 0 a 0) mig ∧ ∃ a, d 0 a 0 ≠ 0 := by
  refine ⟨by simpa using normLower_nonneg, ?_, 1, by norm_num⟩
  have : total (fun a : Fin 2 => (a.val : ℝ)) (fun a : Fin 3 => (a.val : ℝ)) = 1 := by
    unfold total
    rw [Fin.sum_univ_two]
    norm_num
  rw [this]
  exact normUpper_le_one

end Pyirf.Bench
