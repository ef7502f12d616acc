import Verif.Irf.EffAreaProps
import Verif.Utils.Props

/-!
# Normalized histograms: energy dispersion (C39), migration matrix (C40), PSF table (C41)
-/
set_option linter.unusedSectionVars false
set_option linter.unusedSimpArgs false

namespace Pyirf.Irf
open Pyirf Pyirf.Np Pyirf.Utils Pyirf.Simulations Pyirf.Binning

/-! ## Lemmas -/

theorem sum_numberWhere {ρ ι : Type*} [Fintype ι] (rows : List ρ) (P : ι → ρ → Prop) [∀ i, DecidablePred (P i)] (Q : ρ → Prop)
    [DecidablePred Q] (hu : ∀ r i j, P i r → P j r → i = j) (hc : ∀ r, Q r ↔ ∃ i, P i r) :
    ∑ i, (numberWhere rows (P i) : ℝ) = (numberWhere rows Q : ℝ) := by
  unfold numberWhere
  simp only [← sumWhere_one (K := ℝ)]
  exact sum_sumWhere rows P Q _ hu hc

theorem numberWhere_eq_zero {ρ : Type*} (rows : List ρ) (P : ρ → Prop) [DecidablePred P] :
    numberWhere rows P = 0 ↔ ¬ ∃ r ∈ rows, P r := by
  unfold numberWhere
  rw [List.length_eq_zero_iff, List.filter_eq_nil_iff]
  simp

theorem numberWhere_congr {ρ : Type*} (rows : List ρ) {P Q : ρ → Prop} [DecidablePred P] [DecidablePred Q] (h : ∀ r, P r ↔ Q r) :
    numberWhere rows P = numberWhere rows Q := by
  unfold numberWhere
  congr 1
  apply List.filter_congr
  intro r _
  simp [h r]

theorem numberWhere_pos {ρ : Type*} {rows : List ρ} {P : ρ → Prop} [DecidablePred P] (h : ∃ r ∈ rows, P r) :
    0 < (numberWhere rows P : ℝ) := by
  have : numberWhere rows P ≠ 0 := fun h0 => (numberWhere_eq_zero rows P).mp h0 h
  exact_mod_cast Nat.pos_of_ne_zero this

/-- events in the cell `(i, j)` of the outer two axes with the inner value in range -/
theorem sum_inner {ρ : Type*} (events : List ρ) {m : ℕ} (hm : 0 < m) (P : ρ → Prop) [DecidablePred P] (inner : ρ → FV ℝ)
    {e : Fin (m + 1) → FV ℝ} (he : IncEdges e) :
    ∑ a : Fin m, (numberWhere events (fun r => P r ∧ InBinOf e a (inner r)) : ℝ) =
      (numberWhere events (fun r => P r ∧ InRangeOf e (inner r)) : ℝ) := by
  apply sum_numberWhere
  · rintro r a b ⟨-, ha⟩ ⟨-, hb⟩
    exact inBinOf_unique he ha hb
  · intro r
    rw [← inBinOf_range he hm]
    constructor
    · rintro ⟨h1, a, h2⟩; exact ⟨a, h1, h2⟩
    · rintro ⟨a, h1, h2⟩; exact ⟨h1, a, h2⟩

theorem number_le {ρ : Type*} (events : List ρ) {m : ℕ} (hm : 0 < m) (P : ρ → Prop) [DecidablePred P] (inner : ρ → FV ℝ)
    {e : Fin (m + 1) → FV ℝ} (he : IncEdges e) (a : Fin m) :
    (numberWhere events (fun r => P r ∧ InBinOf e a (inner r)) : ℝ) ≤
      (numberWhere events (fun r => P r ∧ InRangeOf e (inner r)) : ℝ) := by
  rw [← sum_inner events hm P inner he]
  exact Finset.single_le_sum (f := fun a => (numberWhere events (fun r => P r ∧ InBinOf e a (inner r)) : ℝ))
    (fun _ _ => Nat.cast_nonneg _) (Finset.mem_univ a)

/-- count over total over width, as computed, with NaN replaced -/
theorem quotient_num (big c t w : ℝ) (hw : 0 < w) (hc : t = 0 → c = 0) :
    FV.nanToNum (.fin big) (.fin (-big)) (FV.fin c / .fin t / .fin w) = .fin (if t = 0 then 0 else c / t / w) := by
  by_cases h : t = 0
  · rw [if_pos h, h, hc h, FV.fin_div_zero, FV.infSign_zero, FV.nan_div]; rfl
  · rw [if_neg h, FV.fin_div_fin _ _ h, FV.fin_div_fin _ _ hw.ne']; rfl

/-! ## C39 -/

/-- **C39** For finite increasing migration edges the energy dispersion is a matrix of non-negative numbers; in a true-energy and
offset bin with events in the migration range it is the density of those events (entry × width × number of events = events in the bin,
widths × entries add up to 1), in a bin without events it is 0. -/
theorem C39_energy_dispersion {n m k : ℕ} (big : ℝ) (events : List RecoEvent) (trueBins : Fin (n + 1) → FV ℝ) (ht : IncEdges trueBins)
    (fovBins : Fin (k + 1) → FV ℝ) (hf : IncEdges fovBins) (mig : Fin (m + 1) → ℝ) (hmig : StrictMono mig) (hm : 0 < m) :
    ∃ d : Fin n → Fin m → Fin k → ℝ, energyDispersion big events trueBins fovBins (finEdges mig) = .ok (fun i a j => .fin (d i a j)) ∧
      (∀ i a j, 0 ≤ d i a j) ∧
      ∀ i j,
        ((∃ e ∈ events, (InBinOf trueBins i e.trueEnergy ∧ InBinOf fovBins j e.offset) ∧ InRangeOf (finEdges mig) (e.recoEnergy / e.trueEnergy)) →
          ∑ a, d i a j * (mig a.succ - mig a.castSucc) = 1 ∧
          ∀ a, d i a j * (mig a.succ - mig a.castSucc) *
              numberWhere events (fun e => (InBinOf trueBins i e.trueEnergy ∧ InBinOf fovBins j e.offset) ∧
                InRangeOf (finEdges mig) (e.recoEnergy / e.trueEnergy)) =
            numberWhere events (fun e => (InBinOf trueBins i e.trueEnergy ∧ InBinOf fovBins j e.offset) ∧
              InBinOf (finEdges mig) a (e.recoEnergy / e.trueEnergy))) ∧
        ((¬ ∃ e ∈ events, (InBinOf trueBins i e.trueEnergy ∧ InBinOf fovBins j e.offset) ∧ InRangeOf (finEdges mig) (e.recoEnergy / e.trueEnergy)) →
          ∀ a, d i a j = 0) := by
  have hi : IncEdges (finEdges mig) := incEdges_fin hmig.monotone
  let c := fun i a j => (numberWhere events (fun e => (InBinOf trueBins i e.trueEnergy ∧ InBinOf fovBins j e.offset) ∧
              InBinOf (finEdges mig) a (e.recoEnergy / e.trueEnergy)) : ℝ)
  let t := fun i j => (numberWhere events (fun e => (InBinOf trueBins i e.trueEnergy ∧ InBinOf fovBins j e.offset) ∧
                InRangeOf (finEdges mig) (e.recoEnergy / e.trueEnergy)) : ℝ)
  have hsum : ∀ i j, ∑ a, c i a j = t i j := fun i j =>
    sum_inner events hm (fun e => InBinOf trueBins i e.trueEnergy ∧ InBinOf fovBins j e.offset) (fun e => e.recoEnergy / e.trueEnergy) hi
  have hle : ∀ i a j, c i a j ≤ t i j := fun i a j =>
    number_le events hm (fun e => InBinOf trueBins i e.trueEnergy ∧ InBinOf fovBins j e.offset) (fun e => e.recoEnergy / e.trueEnergy) hi a
  have hc0 : ∀ i a j, 0 ≤ c i a j := fun i a j => Nat.cast_nonneg _
  have hw : ∀ a : Fin m, 0 < mig a.succ - mig a.castSucc := fun a => sub_pos.mpr (hmig (Fin.castSucc_lt_succ))
  refine ⟨fun i a j => if t i j = 0 then 0 else c i a j / t i j / (mig a.succ - mig a.castSucc), ?_, ?_, ?_⟩
  · unfold energyDispersion
    simp only [histogram3d_ok ht hi hf]
    congr 1
    unfold normalizeHist
    simp only []
    funext i a j
    have hcell : ∀ b, sumWhere (events.map fun e => (e.trueEnergy, e.recoEnergy / e.trueEnergy, e.offset, (1:ℝ)))
        (fun r => InBinOf trueBins i r.1 ∧ InBinOf (finEdges mig) b r.2.1 ∧ InBinOf fovBins j r.2.2.1) (fun r => r.2.2.2) = c i b j := by
      intro b
      rw [sumWhere_count events (fun e => (e.trueEnergy, e.recoEnergy / e.trueEnergy, e.offset, (1:ℝ))) _ (fun r => r.2.2.2) (fun _ => rfl)]
      simp only [c]
      norm_cast
      apply numberWhere_congr
      intro r; tauto
    simp only [hcell]
    rw [hsum, show finEdges mig a.succ - finEdges mig a.castSucc = .fin (mig a.succ - mig a.castSucc) from FV.fin_sub_fin _ _]
    exact quotient_num big _ _ _ (hw a) (fun h => le_antisymm (h ▸ hle i a j) (hc0 i a j))
  · intro i a j
    simp only []
    split_ifs
    · exact le_rfl
    · have := hw a
      have h1 := hc0 i a j
      have h2 : 0 ≤ t i j := Nat.cast_nonneg _
      positivity
  · intro i j
    refine ⟨fun hex => ?_, fun hne a => ?_⟩
    · have ht0 : 0 < t i j := numberWhere_pos hex
      simp only [if_neg ht0.ne']
      constructor
      · have : ∀ a, c i a j / t i j / (mig a.succ - mig a.castSucc) * (mig a.succ - mig a.castSucc) = c i a j / t i j := by
          intro a; have := (hw a).ne'; field_simp
        simp only [this]
        rw [← Finset.sum_div, hsum, div_self ht0.ne']
      · intro a
        have := (hw a).ne'
        show c i a j / t i j / (mig a.succ - mig a.castSucc) * (mig a.succ - mig a.castSucc) * t i j = c i a j
        have := ht0.ne'
        field_simp
    · have : t i j = 0 := by
        simp only [t]
        exact_mod_cast (numberWhere_eq_zero events _).mpr hne
      simp only [this, if_true]

/-- the hypotheses are satisfiable, and both kinds of columns occur: one event of true energy 2 and reconstructed energy 3 TeV -/
example : IncEdges (![.fin 1, .fin 10, .pinf] : Fin 3 → FV ℝ) ∧ StrictMono (![1/5, 1, 5] : Fin 3 → ℝ) ∧
    InBinOf (![.fin 1, .fin 10, .pinf] : Fin 3 → FV ℝ) 0 (.fin 2) ∧ InRangeOf (finEdges ![1/5, 1, 5]) (FV.fin (3:ℝ) / .fin 2) := by
  refine ⟨⟨fun i => by fin_cases i <;> simp, fun i j hij => ?_⟩, ?_, ?_, ?_⟩
  · fin_cases i <;> fin_cases j <;> first | (simp [FV.le]; done) | (simp [FV.le]; norm_num; done) | (exact absurd hij (by decide))
  · rw [Fin.strictMono_iff_lt_succ]; intro i; fin_cases i
    · show (1/5:ℝ) < 1
      norm_num
    · show (1:ℝ) < 5
      norm_num
  · exact ⟨by simp, Or.inl (by simp; norm_num)⟩
  · rw [FV.fin_div_fin _ _ (by norm_num)]
    exact ⟨decide_eq_true (by show (1/5:ℝ) ≤ 3/2; norm_num), decide_eq_true (by show (3/2:ℝ) ≤ 5; norm_num)⟩

/-! ## C40 -/

/-- **C40** The migration matrix is a matrix of numbers in [0, 1]; in a true-energy and offset bin with events in the range of reconstructed
energies the entries are the fractions of those events and add up to 1, in a bin without events they are 0. -/
theorem C40_migration_matrix {n m k : ℕ} (events : List RecoEvent) (trueBins : Fin (n + 1) → FV ℝ) (ht : IncEdges trueBins)
    (recoBins : Fin (m + 1) → FV ℝ) (hr : IncEdges recoBins) (fovBins : Fin (k + 1) → FV ℝ) (hf : IncEdges fovBins) (hm : 0 < m) :
    ∃ d : Fin n → Fin m → Fin k → ℝ, energyMigrationMatrix events trueBins recoBins fovBins = .ok (fun i a j => .fin (d i a j)) ∧
      (∀ i a j, 0 ≤ d i a j ∧ d i a j ≤ 1) ∧
      ∀ i j,
        ((∃ e ∈ events, (InBinOf trueBins i e.trueEnergy ∧ InBinOf fovBins j e.offset) ∧ InRangeOf recoBins e.recoEnergy) →
          ∑ a, d i a j = 1 ∧
          ∀ a, d i a j * numberWhere events (fun e => (InBinOf trueBins i e.trueEnergy ∧ InBinOf fovBins j e.offset) ∧
                InRangeOf recoBins e.recoEnergy) =
            numberWhere events (fun e => (InBinOf trueBins i e.trueEnergy ∧ InBinOf fovBins j e.offset) ∧
              InBinOf recoBins a e.recoEnergy)) ∧
        ((¬ ∃ e ∈ events, (InBinOf trueBins i e.trueEnergy ∧ InBinOf fovBins j e.offset) ∧ InRangeOf recoBins e.recoEnergy) →
          ∀ a, d i a j = 0) := by
  let c := fun i a j => (numberWhere events (fun e => (InBinOf trueBins i e.trueEnergy ∧ InBinOf fovBins j e.offset) ∧
              InBinOf recoBins a e.recoEnergy) : ℝ)
  let t := fun i j => (numberWhere events (fun e => (InBinOf trueBins i e.trueEnergy ∧ InBinOf fovBins j e.offset) ∧
                InRangeOf recoBins e.recoEnergy) : ℝ)
  have hsum : ∀ i j, ∑ a, c i a j = t i j := fun i j =>
    sum_inner events hm (fun e => InBinOf trueBins i e.trueEnergy ∧ InBinOf fovBins j e.offset) (fun e => e.recoEnergy) hr
  have hle : ∀ i a j, c i a j ≤ t i j := fun i a j =>
    number_le events hm (fun e => InBinOf trueBins i e.trueEnergy ∧ InBinOf fovBins j e.offset) (fun e => e.recoEnergy) hr a
  have hc0 : ∀ i a j, 0 ≤ c i a j := fun i a j => Nat.cast_nonneg _
  refine ⟨fun i a j => if t i j = 0 then 0 else c i a j / t i j, ?_, ?_, ?_⟩
  · unfold energyMigrationMatrix
    simp only [histogram3d_ok ht hr hf]
    congr 1
    funext i a j
    have hcell : ∀ b, sumWhere (events.map fun e => (e.trueEnergy, e.recoEnergy, e.offset, (1:ℝ)))
        (fun r => InBinOf trueBins i r.1 ∧ InBinOf recoBins b r.2.1 ∧ InBinOf fovBins j r.2.2.1) (fun r => r.2.2.2) = c i b j := by
      intro b
      rw [sumWhere_count events (fun e => (e.trueEnergy, e.recoEnergy, e.offset, (1:ℝ))) _ (fun r => r.2.2.2) (fun _ => rfl)]
      simp only [c]
      norm_cast
      apply numberWhere_congr
      intro r; tauto
    simp only [hcell]
    rw [hsum]
    by_cases h : t i j = 0
    · have : c i a j = 0 := le_antisymm (h ▸ hle i a j) (hc0 i a j)
      rw [if_pos h, h, this, FV.fin_div_zero, FV.infSign_zero]; rfl
    · rw [if_neg h, FV.fin_div_fin _ _ h]; rfl
  · intro i a j
    simp only []
    have h1 := hc0 i a j
    have h2 : 0 ≤ t i j := Nat.cast_nonneg _
    split_ifs with h
    · exact ⟨le_rfl, zero_le_one⟩
    · exact ⟨by positivity, by rw [div_le_one (lt_of_le_of_ne h2 (Ne.symm h))]; exact hle i a j⟩
  · intro i j
    refine ⟨fun hex => ?_, fun hne a => ?_⟩
    · have ht0 : 0 < t i j := numberWhere_pos hex
      simp only [if_neg ht0.ne']
      constructor
      · rw [← Finset.sum_div, hsum, div_self ht0.ne']
      · intro a
        show c i a j / t i j * t i j = c i a j
        have := ht0.ne'
        field_simp
    · have : t i j = 0 := by
        simp only [t]
        exact_mod_cast (numberWhere_eq_zero events _).mpr hne
      simp only [this, if_true]

/-! ## C41 -/

theorem ring_pos {m : ℕ} {off : Fin (m + 1) → ℝ} (h : StrictMono off) (h0 : 0 ≤ off 0) (h1 : off (Fin.last m) ≤ Real.pi) (a : Fin m) :
    0 < coneSolidAngle (off a.succ) - coneSolidAngle (off a.castSucc) := by
  have hm : ∀ i, off i ∈ Set.Icc 0 Real.pi := fun i => ⟨h0.trans (h.monotone (Fin.zero_le i)), (h.monotone (Fin.le_last i)).trans h1⟩
  exact sub_pos.mpr (C69_cone_values.2.2 (hm _) (hm _) (h (Fin.castSucc_lt_succ)))

/-- **C41** For source offset edges increasing between 0 and 180 degrees the PSF table consists of non-negative numbers; in an energy and
field of view bin with events in the source offset range it is their density per solid angle (integral 1), in a bin without events 0. -/
theorem C41_psf_table {n k m : ℕ} (big : ℝ) (events : List RecoEvent) (trueBins : Fin (n + 1) → FV ℝ) (ht : IncEdges trueBins)
    (off : Fin (m + 1) → ℝ) (hoff : StrictMono off) (h0 : 0 ≤ off 0) (hpi : off (Fin.last m) ≤ Real.pi)
    (fovBins : Fin (k + 1) → FV ℝ) (hf : IncEdges fovBins) (hm : 0 < m) :
    ∃ d : Fin n → Fin k → Fin m → ℝ, psfTable big events trueBins off fovBins = .ok (fun i j a => .fin (d i j a)) ∧
      (∀ i j a, 0 ≤ d i j a) ∧
      ∀ i j,
        ((∃ e ∈ events, (InBinOf trueBins i e.trueEnergy ∧ InBinOf fovBins j e.offset) ∧ InRangeOf (finEdges off) e.theta) →
          ∑ a, d i j a * (2 * Real.pi * (Real.cos (off a.castSucc) - Real.cos (off a.succ))) = 1 ∧
          ∀ a, d i j a * (2 * Real.pi * (Real.cos (off a.castSucc) - Real.cos (off a.succ))) *
              numberWhere events (fun e => (InBinOf trueBins i e.trueEnergy ∧ InBinOf fovBins j e.offset) ∧
                InRangeOf (finEdges off) e.theta) =
            numberWhere events (fun e => (InBinOf trueBins i e.trueEnergy ∧ InBinOf fovBins j e.offset) ∧
              InBinOf (finEdges off) a e.theta)) ∧
        ((¬ ∃ e ∈ events, (InBinOf trueBins i e.trueEnergy ∧ InBinOf fovBins j e.offset) ∧ InRangeOf (finEdges off) e.theta) →
          ∀ a, d i j a = 0) := by
  have hi : IncEdges (finEdges off) := incEdges_fin hoff.monotone
  let c := fun i j a => (numberWhere events (fun e => (InBinOf trueBins i e.trueEnergy ∧ InBinOf fovBins j e.offset) ∧
              InBinOf (finEdges off) a e.theta) : ℝ)
  let t := fun i j => (numberWhere events (fun e => (InBinOf trueBins i e.trueEnergy ∧ InBinOf fovBins j e.offset) ∧
                InRangeOf (finEdges off) e.theta) : ℝ)
  have hsum : ∀ i j, ∑ a, c i j a = t i j := fun i j =>
    sum_inner events hm (fun e => InBinOf trueBins i e.trueEnergy ∧ InBinOf fovBins j e.offset) (fun e => e.theta) hi
  have hle : ∀ i j a, c i j a ≤ t i j := fun i j a =>
    number_le events hm (fun e => InBinOf trueBins i e.trueEnergy ∧ InBinOf fovBins j e.offset) (fun e => e.theta) hi a
  have hc0 : ∀ i j a, 0 ≤ c i j a := fun i j a => Nat.cast_nonneg _
  have hw := ring_pos hoff h0 hpi
  have hwe : ∀ a : Fin m, 2 * Real.pi * (Real.cos (off a.castSucc) - Real.cos (off a.succ)) =
      coneSolidAngle (off a.succ) - coneSolidAngle (off a.castSucc) := fun a => by unfold coneSolidAngle; ring
  simp only [hwe]
  refine ⟨fun i j a => if t i j = 0 then 0 else c i j a / t i j / (coneSolidAngle (off a.succ) - coneSolidAngle (off a.castSucc)), ?_, ?_, ?_⟩
  · unfold psfTable
    simp only [histogram3d_ok ht hf hi]
    congr 1
    unfold normalizePsf
    simp only []
    funext i j a
    have hcell : ∀ b, sumWhere (events.map fun e => (e.trueEnergy, e.offset, e.theta, (1:ℝ)))
        (fun r => InBinOf trueBins i r.1 ∧ InBinOf fovBins j r.2.1 ∧ InBinOf (finEdges off) b r.2.2.1) (fun r => r.2.2.2) = c i j b := by
      intro b
      rw [sumWhere_count events (fun e => (e.trueEnergy, e.offset, e.theta, (1:ℝ))) _ (fun r => r.2.2.2) (fun _ => rfl)]
      simp only [c]
      norm_cast
      apply numberWhere_congr
      intro r; tauto
    simp only [hcell]
    rw [hsum]
    by_cases h : t i j = 0
    · have : c i j a = 0 := le_antisymm (h ▸ hle i j a) (hc0 i j a)
      rw [if_pos h, h, this, FV.fin_div_zero, FV.infSign_zero]
      show FV.fin (0:ℝ) / _ = _
      rw [FV.fin_div_fin _ _ (hw a).ne', zero_div]
    · rw [if_neg h, FV.fin_div_fin _ _ h]
      show FV.fin (c i j a / t i j) / _ = _
      rw [FV.fin_div_fin _ _ (hw a).ne']
  · intro i j a
    simp only []
    split_ifs
    · exact le_rfl
    · have := hw a
      have h1 := hc0 i j a
      have h2 : 0 ≤ t i j := Nat.cast_nonneg _
      positivity
  · intro i j
    refine ⟨fun hex => ?_, fun hne a => ?_⟩
    · have ht0 : 0 < t i j := numberWhere_pos hex
      simp only [if_neg ht0.ne']
      constructor
      · have : ∀ a : Fin m, c i j a / t i j / (coneSolidAngle (off a.succ) - coneSolidAngle (off a.castSucc)) *
            (coneSolidAngle (off a.succ) - coneSolidAngle (off a.castSucc)) = c i j a / t i j := by
          intro a; have := (hw a).ne'; field_simp
        simp only [this]
        rw [← Finset.sum_div, hsum, div_self ht0.ne']
      · intro a
        have := (hw a).ne'
        show c i j a / t i j / (coneSolidAngle (off a.succ) - coneSolidAngle (off a.castSucc)) *
          (coneSolidAngle (off a.succ) - coneSolidAngle (off a.castSucc)) * t i j = c i j a
        have := ht0.ne'
        field_simp
    · have : t i j = 0 := by
        simp only [t]
        exact_mod_cast (numberWhere_eq_zero events _).mpr hne
      simp only [this, if_true]

/-- the hypotheses of C41 are satisfiable -/
example : StrictMono (![0, 1/10, 1] : Fin 3 → ℝ) ∧ (0:ℝ) ≤ (![0, 1/10, 1] : Fin 3 → ℝ) 0 ∧
    (![0, 1/10, 1] : Fin 3 → ℝ) (Fin.last 2) ≤ Real.pi := by
  refine ⟨?_, le_rfl, ?_⟩
  · rw [Fin.strictMono_iff_lt_succ]; intro i; fin_cases i
    · show (0:ℝ) < 1/10
      norm_num
    · show (1/10:ℝ) < 1
      norm_num
  · show (1:ℝ) ≤ Real.pi
    linarith [Real.two_le_pi]

end Pyirf.Irf
