import Verif.Irf.Model
import Verif.Binning.ResampleProps

/-!
# Migration matrix from an energy dispersion (C44, C87)
-/
set_option linter.unusedSectionVars false
set_option linter.unusedSimpArgs false

namespace Pyirf.Irf
open Pyirf Pyirf.Np Pyirf.Binning

/-! ## Specification -/

/-- Centre of new true energy bin `idx`. -/
noncomputable def trueCentre {ne : ℕ} (newTrue : Fin (ne + 1) → ℝ) (idx : Fin ne) : ℝ := (newTrue idx.succ + newTrue idx.castSucc) / 2

/-- The new reconstructed energies reach from the smallest to the largest migration: the first edge is `-inf` or a number whose ratio to
the true energy is at most the first migration edge, the last is `inf` or has a ratio of at least the last migration edge. -/
def CoversMigration {a m : ℕ} (mig : Fin (a + 2) → ℝ) (eTrue : ℝ) (newReco : Fin (m + 1) → FV ℝ) : Prop :=
  (newReco 0 = .ninf ∨ ∃ r, newReco 0 = .fin r ∧ r / eTrue ≤ mig 0) ∧
  (newReco (Fin.last m) = .pinf ∨ ∃ r, newReco (Fin.last m) = .fin r ∧ mig (Fin.last _) ≤ r / eTrue)

/-- Content of the dispersion for the old true energy bins from index `t` to `t'` and migration bins from `r` to `r'`. -/
noncomputable def contentBetween {e a : ℕ} (dispersion : Fin (e + 1) → Fin (a + 1) → ℝ) (mig : Fin (a + 2) → ℝ)
    (t t' : Fin (e + 2)) (r r' : Fin (a + 2)) : ℝ :=
  ∑ i : Fin (e + 1), ∑ b : Fin (a + 1), if (t.val ≤ i.val ∧ i.val < t'.val) ∧ (r.val ≤ b.val ∧ b.val < r'.val) then
    dispersion i b * (mig b.succ - mig b.castSucc) else 0

/-! ## Lemmas -/

/-- the number that replaces a new edge -/
noncomputable def edgeNum (big : ℝ) (x : FV ℝ) : ℝ := finVal (FV.nanToNum (.fin big) (.fin (-big)) x)

theorem resample_edgeNum {n m : ℕ} (spline : (Fin (n + 2) → ℝ) → (Fin (n + 2) → ℝ) → ℝ → ℝ) (big : ℝ) (data : Fin (n + 1) → ℝ)
    (old : Fin (n + 2) → FV ℝ) (new : Fin (m + 1) → FV ℝ) :
    resampleHistogram1d spline big data old new = resampleHistogram1d spline big data old (fun j => .fin (edgeNum big (new j))) := rfl

theorem fin_div_pos {r eT : ℝ} (h : 0 < eT) : (FV.fin r / .fin eT : FV ℝ) = .fin (r / eT) := FV.fin_div_fin _ _ h.ne'

theorem inf_div_pos {eT : ℝ} (h : 0 < eT) : (FV.pinf / .fin eT : FV ℝ) = .pinf ∧ (FV.ninf / .fin eT : FV ℝ) = .ninf := by
  constructor
  · show FV.div FV.pinf (.fin eT) = _
    simp [FV.div, h.le]
  · show FV.div FV.ninf (.fin eT) = _
    simp [FV.div, h.le]

theorem centre_fin {ne : ℕ} (newTrue : Fin (ne + 1) → ℝ) (idx : Fin ne) :
    (finEdges newTrue idx.succ + finEdges newTrue idx.castSucc) / .fin 2 = .fin (trueCentre newTrue idx) := by
  unfold finEdges trueCentre
  rw [FV.fin_add_fin, FV.fin_div_fin _ _ (by norm_num)]

/-- the call in terms of the resampled true energy axis -/
theorem toMigration_eq {e a k ne m : ℕ} (he : e ≠ 0)
    (splineE : (Fin (e + 2) → ℝ) → (Fin (e + 2) → ℝ) → ℝ → ℝ) (splineM : (Fin (a + 2) → ℝ) → (Fin (a + 2) → ℝ) → ℝ → ℝ) (big : ℝ)
    (dispersion : Fin (e + 1) → Fin (a + 1) → Fin k → ℝ) (trueEdges : Fin (e + 2) → FV ℝ) (mig : Fin (a + 2) → ℝ)
    (newTrue : Fin (ne + 1) → ℝ) (newReco : Fin (m + 1) → FV ℝ) (idx : Fin ne) (j : Fin k) (I : Fin (a + 1) → Fin ne → ℝ)
    (hI : ∀ b, resampleHistogram1d splineE big (fun i => dispersion i b j * (mig b.succ - mig b.castSucc)) trueEdges
      (finEdges newTrue) = .ok (I b)) :
    energyDispersionToMigration splineE splineM big dispersion trueEdges mig (finEdges newTrue) newReco idx j =
      resampleHistogram1d splineM big (fun b => I b idx / if ∑ b, I b idx = 0 then 1 else ∑ b, I b idx) (finEdges mig)
        (fun l => newReco l / .fin (trueCentre newTrue idx)) := by
  unfold energyDispersionToMigration migrationColumn
  rw [if_neg he]
  simp only [hI, centre_fin]

/-! ## C44 -/

/-- **C44** (normalization) If the dispersion resampled to the new true energy bin has content and the new reconstructed energies
reach over the migration range, the entries for that bin add up to 1. -/
theorem C44_normalized {e a k ne m : ℕ} (he : e ≠ 0) (ha : a ≠ 0)
    (splineE : (Fin (e + 2) → ℝ) → (Fin (e + 2) → ℝ) → ℝ → ℝ) (splineM : (Fin (a + 2) → ℝ) → (Fin (a + 2) → ℝ) → ℝ → ℝ)
    (hs : ThroughNodes splineM) (big : ℝ) (dispersion : Fin (e + 1) → Fin (a + 1) → Fin k → ℝ) (trueEdges : Fin (e + 2) → FV ℝ)
    (mig : Fin (a + 2) → ℝ) (hmig : StrictMono mig) (hbig0 : -big ≤ mig 0) (hbig1 : mig (Fin.last _) ≤ big)
    (newTrue : Fin (ne + 1) → ℝ) (newReco : Fin (m + 1) → FV ℝ) (idx : Fin ne) (j : Fin k) (hpos : 0 < trueCentre newTrue idx)
    (hcov : CoversMigration mig (trueCentre newTrue idx) newReco) (I : Fin (a + 1) → Fin ne → ℝ)
    (hI : ∀ b, resampleHistogram1d splineE big (fun i => dispersion i b j * (mig b.succ - mig b.castSucc)) trueEdges
      (finEdges newTrue) = .ok (I b)) (hne : ∑ b, I b idx ≠ 0) :
    ∃ out, energyDispersionToMigration splineE splineM big dispersion trueEdges mig (finEdges newTrue) newReco idx j = .ok out ∧
      ∑ l, out l = 1 := by
  rw [toMigration_eq he splineE splineM big dispersion trueEdges mig newTrue newReco idx j I hI, resample_edgeNum]
  simp only [if_neg hne]
  have htot : ∑ b, I b idx / ∑ b, I b idx = 1 := by rw [← Finset.sum_div, div_self hne]
  obtain ⟨out, h1, h2⟩ := C07_conserves_total ha splineM hs big (fun b => I b idx / ∑ b, I b idx) mig hmig
    (fun l => edgeNum big (newReco l / .fin (trueCentre newTrue idx))) (by
      rcases hcov.1 with h | ⟨r, h, hr⟩
      · rw [h, (inf_div_pos hpos).2]; exact hbig0
      · rw [h, fin_div_pos hpos]; exact hr) (by
      rcases hcov.2 with h | ⟨r, h, hr⟩
      · rw [h, (inf_div_pos hpos).1]; exact hbig1
      · rw [h, fin_div_pos hpos]; exact hr) (by rw [htot]; exact one_ne_zero)
  exact ⟨out, h1, h2.trans htot⟩

theorem between_sum {e a : ℕ} (dispersion : Fin (e + 1) → Fin (a + 1) → ℝ) (mig : Fin (a + 2) → ℝ) (t t' : Fin (e + 2)) (r r' : Fin (a + 2)) :
    (∑ b : Fin (a + 1), if r.val ≤ b.val ∧ b.val < r'.val then (∑ i : Fin (e + 1),
      if t.val ≤ i.val ∧ i.val < t'.val then dispersion i b * (mig b.succ - mig b.castSucc) else 0) else 0) =
      contentBetween dispersion mig t t' r r' := by
  unfold contentBetween
  rw [Finset.sum_comm]
  apply Finset.sum_congr rfl
  intro b _
  by_cases h : r.val ≤ b.val ∧ b.val < r'.val
  · rw [if_pos h]
    apply Finset.sum_congr rfl
    intro i _
    by_cases h2 : t.val ≤ i.val ∧ i.val < t'.val
    · rw [if_pos h2, if_pos ⟨h2, h⟩]
    · rw [if_neg h2, if_neg (fun h3 => h2 h3.1)]
  · rw [if_neg h]
    symm
    apply Finset.sum_eq_zero
    intro i _
    rw [if_neg (fun h3 => h h3.2)]

/-- **C44** (matching edges) If every new true energy edge is an old one (new edge `l` = old edge `t l`) and the new reconstructed energy edges are
the true energy times migration edges `r l`, the entry is the dispersion content in the merged true energy bin between the migration edges, as a
fraction of the content of the merged true energy bin. -/
theorem C44_matching_edges {e a k ne m : ℕ} (he : e ≠ 0) (ha : a ≠ 0)
    (splineE : (Fin (e + 2) → ℝ) → (Fin (e + 2) → ℝ) → ℝ → ℝ) (splineM : (Fin (a + 2) → ℝ) → (Fin (a + 2) → ℝ) → ℝ → ℝ)
    (hsE : ThroughNodes splineE) (hsM : ThroughNodes splineM) (big : ℝ) (dispersion : Fin (e + 1) → Fin (a + 1) → Fin k → ℝ)
    (trueEdges : Fin (e + 2) → ℝ) (htrue : StrictMono trueEdges) (mig : Fin (a + 2) → ℝ) (hmig : StrictMono mig)
    (t : Fin (ne + 1) → Fin (e + 2)) (ht : Monotone t) (r : Fin (m + 1) → Fin (a + 2)) (hr : Monotone r) (idx : Fin ne) (j : Fin k)
    (hpos : 0 < trueCentre (fun l => trueEdges (t l)) idx)
    (hne : contentBetween (fun i b => dispersion i b j) mig (t idx.castSucc) (t idx.succ) 0 (Fin.last _) ≠ 0) :
    ∃ out, energyDispersionToMigration splineE splineM big dispersion (finEdges trueEdges) mig (finEdges fun l => trueEdges (t l))
        (finEdges fun l => trueCentre (fun l => trueEdges (t l)) idx * mig (r l)) idx j = .ok out ∧
      ∀ l : Fin m, out l = contentBetween (fun i b => dispersion i b j) mig (t idx.castSucc) (t idx.succ) (r l.castSucc) (r l.succ) /
        contentBetween (fun i b => dispersion i b j) mig (t idx.castSucc) (t idx.succ) 0 (Fin.last _) := by
  have h1 := fun b : Fin (a + 1) => C07_merges_bins he splineE hsE big (fun i => dispersion i b j * (mig b.succ - mig b.castSucc)) trueEdges htrue t ht
  choose I hI hIv using h1
  rw [toMigration_eq he splineE splineM big dispersion (finEdges trueEdges) mig (fun l => trueEdges (t l)) _ idx j I hI]
  have hsum : ∑ b, I b idx = contentBetween (fun i b => dispersion i b j) mig (t idx.castSucc) (t idx.succ) 0 (Fin.last _) := by
    rw [← between_sum]
    apply Finset.sum_congr rfl
    intro b _
    rw [hIv b idx, if_pos ⟨Nat.zero_le _, b.2⟩]
  have hedge : (fun l => finEdges (fun l => trueCentre (fun l => trueEdges (t l)) idx * mig (r l)) l /
      FV.fin (trueCentre (fun l => trueEdges (t l)) idx)) = fun l => .fin (mig (r l)) := by
    funext l
    show FV.fin _ / FV.fin _ = _
    rw [fin_div_pos hpos, mul_div_cancel_left₀ _ hpos.ne']
  rw [hedge]
  obtain ⟨out, ho, hov⟩ := C07_merges_bins ha splineM hsM big (fun b => I b idx / if ∑ b, I b idx = 0 then 1 else ∑ b, I b idx) mig hmig r hr
  refine ⟨out, ho, fun l => ?_⟩
  rw [hov l, hsum, if_neg hne, ← between_sum _ _ _ _ (r l.castSucc), Finset.sum_div]
  apply Finset.sum_congr rfl
  intro b _
  split_ifs with h
  · rw [hIv b idx]
  · rw [zero_div]

/-- **C44** (identity) With the same true energy bins and the migration edges scaled by the bin's true energy, the entry is the old one:
density times width over the content of the true energy bin. -/
theorem C44_identity {e a k : ℕ} (he : e ≠ 0) (ha : a ≠ 0)
    (splineE : (Fin (e + 2) → ℝ) → (Fin (e + 2) → ℝ) → ℝ → ℝ) (splineM : (Fin (a + 2) → ℝ) → (Fin (a + 2) → ℝ) → ℝ → ℝ)
    (hsE : ThroughNodes splineE) (hsM : ThroughNodes splineM) (big : ℝ) (dispersion : Fin (e + 1) → Fin (a + 1) → Fin k → ℝ)
    (trueEdges : Fin (e + 2) → ℝ) (htrue : StrictMono trueEdges) (mig : Fin (a + 2) → ℝ) (hmig : StrictMono mig) (idx : Fin (e + 1)) (j : Fin k)
    (hpos : 0 < trueCentre trueEdges idx) (hone : ∑ b, dispersion idx b j * (mig b.succ - mig b.castSucc) = 1) :
    energyDispersionToMigration splineE splineM big dispersion (finEdges trueEdges) mig (finEdges trueEdges)
        (finEdges fun l => trueCentre trueEdges idx * mig l) idx j = .ok fun l => dispersion idx l j * (mig l.succ - mig l.castSucc) := by
  have hcell : ∀ r r' : Fin (a + 2), contentBetween (fun i b => dispersion i b j) mig idx.castSucc idx.succ r r' =
      ∑ b : Fin (a + 1), if r.val ≤ b.val ∧ b.val < r'.val then dispersion idx b j * (mig b.succ - mig b.castSucc) else 0 := by
    intro r r'
    unfold contentBetween
    rw [Finset.sum_eq_single idx]
    · apply Finset.sum_congr rfl
      intro b _
      simp
    · intro i _ hi
      apply Finset.sum_eq_zero
      intro b _
      rw [if_neg]
      rintro ⟨⟨h1, h2⟩, -⟩
      apply hi
      ext
      simp only [Fin.val_castSucc, Fin.val_succ] at h1 h2
      omega
    · simp
  have htot : contentBetween (fun i b => dispersion i b j) mig idx.castSucc idx.succ 0 (Fin.last _) = 1 := by
    rw [hcell, ← hone]
    apply Finset.sum_congr rfl
    intro b _
    rw [if_pos ⟨Nat.zero_le _, b.2⟩]
  obtain ⟨out, h1, h2⟩ := C44_matching_edges he ha splineE splineM hsE hsM big dispersion trueEdges htrue mig hmig id monotone_id id monotone_id
    idx j hpos (by show contentBetween _ mig idx.castSucc idx.succ 0 (Fin.last _) ≠ 0; rw [htot]; exact one_ne_zero)
  refine Eq.trans h1 ?_
  congr 1
  funext l
  rw [h2 l]
  show contentBetween _ mig idx.castSucc idx.succ l.castSucc l.succ / contentBetween _ mig idx.castSucc idx.succ 0 (Fin.last _) = _
  rw [htot, div_one, hcell, Finset.sum_eq_single l]
  · simp
  · intro b _ hb
    rw [if_neg]
    rintro ⟨h3, h4⟩
    apply hb; ext
    simp only [Fin.val_castSucc, Fin.val_succ] at h3 h4
    omega
  · simp

/-- **C44** (outside) A new reconstructed energy bin whose migrations are all below or all above the old migration range is filled with 0. -/
theorem C44_outside_zero {e a k ne m : ℕ} (he : e ≠ 0) (ha : a ≠ 0)
    (splineE : (Fin (e + 2) → ℝ) → (Fin (e + 2) → ℝ) → ℝ → ℝ) (splineM : (Fin (a + 2) → ℝ) → (Fin (a + 2) → ℝ) → ℝ → ℝ)
    (big : ℝ) (dispersion : Fin (e + 1) → Fin (a + 1) → Fin k → ℝ) (trueEdges : Fin (e + 2) → FV ℝ) (mig : Fin (a + 2) → ℝ) (hmig : StrictMono mig)
    (newTrue : Fin (ne + 1) → ℝ) (newReco : Fin (m + 1) → ℝ) (idx : Fin ne) (j : Fin k) (hpos : 0 < trueCentre newTrue idx) (out : Fin m → ℝ)
    (hout : energyDispersionToMigration splineE splineM big dispersion trueEdges mig (finEdges newTrue) (finEdges newReco) idx j = .ok out)
    (l : Fin m) (hl : newReco l.castSucc ≤ newReco l.succ)
    (h : newReco l.succ < trueCentre newTrue idx * mig 0 ∨ trueCentre newTrue idx * mig (Fin.last _) < newReco l.castSucc) : out l = 0 := by
  have hI : ∀ b, ∃ I, resampleHistogram1d splineE big (fun i => dispersion i b j * (mig b.succ - mig b.castSucc)) trueEdges
      (finEdges newTrue) = .ok I := by
    intro b
    unfold resampleHistogram1d
    rw [if_neg he]
    exact ⟨_, rfl⟩
  choose I hI using hI
  rw [toMigration_eq he splineE splineM big dispersion trueEdges mig newTrue _ idx j I hI] at hout
  have hedge : (fun l => finEdges newReco l / FV.fin (trueCentre newTrue idx)) = fun l => .fin (newReco l / trueCentre newTrue idx) := by
    funext l; exact fin_div_pos hpos
  rw [hedge] at hout
  apply C07_outside_zero ha splineM big _ mig hmig _ out hout l (by gcongr)
  rcases h with h | h
  · left; rw [div_lt_iff₀ hpos]; linarith
  · right; rw [lt_div_iff₀ hpos]; linarith

/-! ## C87: columns without content -/

/-- **C87** An empty dispersion: if the new reconstructed energies start at or below the migration range and end above it, the
entries of the "empty" true energy bin add up to 1. -/
theorem C87_empty_gains_content {e a k ne m : ℕ} (he : e ≠ 0) (ha : a ≠ 0)
    (splineE : (Fin (e + 2) → ℝ) → (Fin (e + 2) → ℝ) → ℝ → ℝ) (splineM : (Fin (a + 2) → ℝ) → (Fin (a + 2) → ℝ) → ℝ → ℝ)
    (hsE : ThroughNodes splineE) (hsM : ThroughNodes splineM) (big : ℝ) (dispersion : Fin (e + 1) → Fin (a + 1) → Fin k → ℝ)
    (trueEdges : Fin (e + 2) → ℝ) (htrue : StrictMono trueEdges) (mig : Fin (a + 2) → ℝ) (hmig : StrictMono mig)
    (t : Fin (ne + 1) → Fin (e + 2)) (ht : Monotone t) (newReco : Fin (m + 1) → ℝ) (idx : Fin ne) (j : Fin k)
    (hpos : 0 < trueCentre (fun l => trueEdges (t l)) idx) (hempty : ∀ i b, dispersion i b j = 0)
    (hlo : newReco 0 ≤ trueCentre (fun l => trueEdges (t l)) idx * mig 0)
    (hhi : trueCentre (fun l => trueEdges (t l)) idx * mig (Fin.last _) < newReco (Fin.last m)) :
    ∃ out, energyDispersionToMigration splineE splineM big dispersion (finEdges trueEdges) mig (finEdges fun l => trueEdges (t l))
        (finEdges newReco) idx j = .ok out ∧ ∑ l, out l = 1 := by
  have h1 := fun b : Fin (a + 1) => C07_merges_bins he splineE hsE big (fun i => dispersion i b j * (mig b.succ - mig b.castSucc)) trueEdges htrue t ht
  choose I hI hIv using h1
  rw [toMigration_eq he splineE splineM big dispersion (finEdges trueEdges) mig (fun l => trueEdges (t l)) _ idx j I hI]
  have hz : ∀ b, I b idx = 0 := by
    intro b
    rw [hIv b idx]
    apply Finset.sum_eq_zero
    intro i _
    rw [hempty, zero_mul, ite_self]
  have hedge : (fun l => finEdges newReco l / FV.fin (trueCentre (fun l => trueEdges (t l)) idx)) =
      fun l => .fin (newReco l / trueCentre (fun l => trueEdges (t l)) idx) := by
    funext l; exact fin_div_pos hpos
  rw [hedge]
  simp only [hz, zero_div]
  apply C73_empty_gains_content ha splineM hsM big mig hmig
  · rw [div_le_iff₀ hpos]; linarith
  · rw [lt_div_iff₀ hpos]; linarith

/-- **C87** The entries of an empty true energy bin, for non-decreasing reconstructed energies: 1 in the bin that crosses the upper end of the
migration range (centre of the true bin times the last migration edge), 0 in all others. -/
theorem C87_empty_formula {e a k ne m : ℕ} (he : e ≠ 0) (ha : a ≠ 0)
    (splineE : (Fin (e + 2) → ℝ) → (Fin (e + 2) → ℝ) → ℝ → ℝ) (splineM : (Fin (a + 2) → ℝ) → (Fin (a + 2) → ℝ) → ℝ → ℝ)
    (hz : ∀ xs t, splineM xs (fun _ => 0) t = 0) (big : ℝ) (dispersion : Fin (e + 1) → Fin (a + 1) → Fin k → ℝ)
    (trueEdges : Fin (e + 2) → FV ℝ) (mig : Fin (a + 2) → ℝ) (hmig : Monotone mig)
    (newTrue : Fin (ne + 1) → ℝ) (newReco : Fin (m + 1) → ℝ) (hreco : Monotone newReco) (idx : Fin ne) (j : Fin k)
    (hpos : 0 < trueCentre newTrue idx) (I : Fin (a + 1) → Fin ne → ℝ)
    (hI : ∀ b, resampleHistogram1d splineE big (fun i => dispersion i b j * (mig b.succ - mig b.castSucc)) trueEdges
      (finEdges newTrue) = .ok (I b)) (hempty : ∀ b, I b idx = 0) :
    energyDispersionToMigration splineE splineM big dispersion trueEdges mig (finEdges newTrue) (finEdges newReco) idx j =
      .ok fun l => if newReco l.castSucc ≤ trueCentre newTrue idx * mig (Fin.last _) ∧ trueCentre newTrue idx * mig (Fin.last _) < newReco l.succ
        then 1 else 0 := by
  rw [toMigration_eq he splineE splineM big dispersion trueEdges mig newTrue _ idx j I hI]
  have hedge : (fun l => finEdges newReco l / FV.fin (trueCentre newTrue idx)) = fun l => .fin (newReco l / trueCentre newTrue idx) := by
    funext l; exact fin_div_pos hpos
  rw [hedge]
  simp only [hempty, zero_div]
  refine (C73_empty_formula ha splineM hz big mig hmig (fun l => newReco l / trueCentre newTrue idx)
    (fun x y h => div_le_div_of_nonneg_right (hreco h) hpos.le)).trans ?_
  congr 1
  funext l
  simp only [div_le_iff₀ hpos, lt_div_iff₀ hpos, mul_comm]

/-- **C87** So an empty true energy bin stays empty exactly if the reconstructed energies do not cross the upper end of the migration range. -/
theorem C87_empty_stays_empty_iff {e a k ne m : ℕ} (he : e ≠ 0) (ha : a ≠ 0)
    (splineE : (Fin (e + 2) → ℝ) → (Fin (e + 2) → ℝ) → ℝ → ℝ) (splineM : (Fin (a + 2) → ℝ) → (Fin (a + 2) → ℝ) → ℝ → ℝ)
    (hz : ∀ xs t, splineM xs (fun _ => 0) t = 0) (big : ℝ) (dispersion : Fin (e + 1) → Fin (a + 1) → Fin k → ℝ)
    (trueEdges : Fin (e + 2) → FV ℝ) (mig : Fin (a + 2) → ℝ) (hmig : Monotone mig)
    (newTrue : Fin (ne + 1) → ℝ) (newReco : Fin (m + 1) → ℝ) (hreco : Monotone newReco) (idx : Fin ne) (j : Fin k)
    (hpos : 0 < trueCentre newTrue idx) (I : Fin (a + 1) → Fin ne → ℝ)
    (hI : ∀ b, resampleHistogram1d splineE big (fun i => dispersion i b j * (mig b.succ - mig b.castSucc)) trueEdges
      (finEdges newTrue) = .ok (I b)) (hempty : ∀ b, I b idx = 0) :
    energyDispersionToMigration splineE splineM big dispersion trueEdges mig (finEdges newTrue) (finEdges newReco) idx j = .ok (fun _ => 0) ↔
      ¬ (newReco 0 ≤ trueCentre newTrue idx * mig (Fin.last _) ∧ trueCentre newTrue idx * mig (Fin.last _) < newReco (Fin.last m)) := by
  rw [toMigration_eq he splineE splineM big dispersion trueEdges mig newTrue _ idx j I hI]
  have hedge : (fun l => finEdges newReco l / FV.fin (trueCentre newTrue idx)) = fun l => .fin (newReco l / trueCentre newTrue idx) := by
    funext l; exact fin_div_pos hpos
  rw [hedge]
  simp only [hempty, zero_div]
  refine (C73_empty_stays_empty_iff ha splineM hz big mig hmig (fun l => newReco l / trueCentre newTrue idx)
    (fun x y h => div_le_div_of_nonneg_right (hreco h) hpos.le)).trans ?_
  simp only [div_le_iff₀ hpos, lt_div_iff₀ hpos, mul_comm]

/-! ## Satisfiability -/

/-- an interpolant through the nodes that maps zeros to zero -/
example : ThroughNodes (K := ℝ) (m := 3) (fun xs ys t => ∑ i, if xs i = t then ys i else 0) ∧
    ∀ (xs : Fin 3 → ℝ) (t : ℝ), (∑ i, if xs i = t then (fun _ => (0:ℝ)) i else 0) = 0 := by
  refine ⟨fun xs ys hx i => ?_, fun xs t => by simp⟩
  simp only []
  rw [Finset.sum_eq_single i]
  · simp
  · intro b _ hb; rw [if_neg (fun h => hb (hx.injective h))]
  · simp

/-- true energies 1, 2, 4 TeV, migrations 0, 1, 2, reconstructed energies 0 to 6 TeV and to infinity -/
example : StrictMono (![1, 2, 4] : Fin 3 → ℝ) ∧ StrictMono (![0, 1, 2] : Fin 3 → ℝ) ∧ 0 < trueCentre (![1, 2, 4] : Fin 3 → ℝ) 1 ∧
    CoversMigration (![0, 1, 2] : Fin 3 → ℝ) (trueCentre (![1, 2, 4] : Fin 3 → ℝ) 1) (![.fin 0, .fin 3, .fin 6] : Fin 3 → FV ℝ) ∧
    CoversMigration (![0, 1, 2] : Fin 3 → ℝ) (trueCentre (![1, 2, 4] : Fin 3 → ℝ) 1) (![.fin 0, .fin 3, .pinf] : Fin 3 → FV ℝ) ∧
    contentBetween (e := 1) (a := 1) (fun _ _ => 1 / 2) ![0, 1, 2] 1 2 0 (Fin.last _) ≠ 0 := by
  have hc : trueCentre (![1, 2, 4] : Fin 3 → ℝ) 1 = 3 := by
    show ((4:ℝ) + 2) / 2 = 3
    norm_num
  refine ⟨?_, ?_, by rw [hc]; norm_num, ⟨Or.inr ⟨0, rfl, ?_⟩, Or.inr ⟨6, rfl, ?_⟩⟩, ⟨Or.inr ⟨0, rfl, ?_⟩, Or.inl rfl⟩, ?_⟩
  · rw [Fin.strictMono_iff_lt_succ]; intro i; fin_cases i
    · show (1:ℝ) < 2
      norm_num
    · show (2:ℝ) < 4
      norm_num
  · rw [Fin.strictMono_iff_lt_succ]; intro i; fin_cases i
    · show (0:ℝ) < 1
      norm_num
    · show (1:ℝ) < 2
      norm_num
  · rw [hc]; show (0:ℝ) / 3 ≤ 0
    norm_num
  · rw [hc]; show (2:ℝ) ≤ 6 / 3
    norm_num
  · rw [hc]; show (0:ℝ) / 3 ≤ 0
    norm_num
  · unfold contentBetween
    simp [Fin.sum_univ_succ]
    norm_num

end Pyirf.Irf
