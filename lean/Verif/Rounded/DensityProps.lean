import Verif.Rounded.HistProps
import Mathlib.Algebra.BigOperators.Fin
import Mathlib.Algebra.BigOperators.Field
import Mathlib.Algebra.Order.BigOperators.Ring.Finset
import Mathlib.Analysis.SpecialFunctions.Trigonometric.Bounds
import Mathlib.Analysis.SpecialFunctions.Trigonometric.DerivHyp

/-!
# C144: effective areas and normalised densities in rounded arithmetic
-/
set_option linter.unusedSectionVars false
set_option linter.unusedSimpArgs false

namespace Pyirf.Rounded
open Pyirf Pyirf.Np
open scoped BigOperators

variable (R : Rounding)

/-! ## Effective areas -/

/-- **C144** The effective area is never negative and never larger than the simulated area; it is 0 if no event is selected, exactly the simulated area if all are, larger for more events, and exact up to two roundings. -/
theorem C144_effective_area (n m nSim area : ℝ) (hn : 0 ≤ n) (hnm : n ≤ m) (hm : m ≤ nSim) (hs : 0 < nSim) (ha : 0 ≤ area) (hf : R.Is area) :
    0 ≤ effectiveArea R n nSim area ∧ effectiveArea R n nSim area ≤ effectiveArea R m nSim area ∧ effectiveArea R m nSim area ≤ area ∧
    effectiveArea R 0 nSim area = 0 ∧ effectiveArea R nSim nSim area = area ∧ Near R 2 (effectiveArea R n nSim area) (n / nSim * area) := by
  have h0 : 0 ≤ R.div n nSim := R.nonneg (div_nonneg hn hs.le)
  have h1 : R.div n nSim ≤ R.div m nSim := R.mono (by gcongr)
  have h2 : R.div m nSim ≤ 1 := R.le_of_le R.one (by rw [div_le_one hs]; exact hm)
  refine ⟨R.nonneg (mul_nonneg h0 ha), R.mono (mul_le_mul_of_nonneg_right h1 ha), R.le_of_le hf ?_, ?_, ?_, ?_⟩
  · nlinarith
  · unfold effectiveArea Rounding.mul Rounding.div
    rw [zero_div, R.zero, zero_mul, R.zero]
  · unfold effectiveArea Rounding.mul Rounding.div
    rw [div_self hs.ne', R.one, one_mul, hf]
  · have hx : 0 ≤ n / nSim := div_nonneg hn hs.le
    obtain ⟨a1, a2⟩ := R.bounds hx
    obtain ⟨b1, b2⟩ := R.bounds (mul_nonneg h0 ha)
    have hu0 := R.u_nonneg
    have hu1 := R.u_lt_one
    constructor
    · refine le_trans ?_ b1
      rw [pow_two, mul_assoc]
      refine mul_le_mul_of_nonneg_left ?_ (by linarith)
      rw [← mul_assoc]
      exact mul_le_mul_of_nonneg_right a1 ha
    · refine b2.trans ?_
      rw [pow_two, mul_assoc]
      refine mul_le_mul_of_nonneg_left ?_ (by linarith)
      rw [← mul_assoc]
      exact mul_le_mul_of_nonneg_right a2 ha

/-! ## Sums of counts are exact -/

theorem foldl_nat (l : List ℕ) (s : ℕ) (h : s + l.sum ≤ R.limit) : (l.map (fun c : ℕ => (c : ℝ))).foldl R.add s = ((s + l.sum : ℕ) : ℝ) := by
  induction l generalizing s with
  | nil => simp
  | cons a l ih =>
    simp only [List.map_cons, List.foldl_cons, List.sum_cons] at h ⊢
    have e : R.add s a = ((s + a : ℕ) : ℝ) := by
      unfold Rounding.add
      have := R.nat (s + a) (by omega)
      push_cast at this ⊢
      exact this
    rw [e, ih (s + a) (by omega)]
    congr 1
    omega

theorem seqSum_counts {n : ℕ} (counts : Fin n → ℕ) (h : ∑ b, counts b ≤ R.limit) : seqSum R ((List.finRange n).map fun b => (counts b : ℝ)) = ((∑ b, counts b : ℕ) : ℝ) := by
  have hs : ((List.finRange n).map counts).sum = ∑ b, counts b := by rw [Fin.sum_univ_def]
  have := foldl_nat R ((List.finRange n).map counts) 0 (by rw [hs]; omega)
  rw [List.map_map, hs, zero_add] at this
  unfold seqSum
  exact_mod_cast this

/-! ## Migration matrix -/

/-- **C144** A row of the energy migration matrix (fewer than `limit` events): entries between 0 and 1, 0 exactly where there is no event, and 0 everywhere if there is no event at all; otherwise each entry is the rounded fraction of
the events, so their exact sum is 1 up to `u`, and exactly 1 if all events are in one bin. -/
theorem C144_migration {n : ℕ} (counts : Fin n → ℕ) (hlim : ∑ b, counts b ≤ R.limit) :
    (∀ b, 0 ≤ normalizeRow R counts b ∧ normalizeRow R counts b ≤ 1 ∧ (normalizeRow R counts b = 0 ↔ counts b = 0)) ∧
    (0 < ∑ b, counts b → (∀ b, normalizeRow R counts b = R.rd ((counts b : ℝ) / ((∑ b, counts b : ℕ) : ℝ))) ∧ |(∑ b, normalizeRow R counts b) - 1| ≤ R.u ∧
      ∀ b, counts b = ∑ b, counts b → normalizeRow R counts b = 1 ∧ ∑ b, normalizeRow R counts b = 1) := by
  have hle : ∀ b, counts b ≤ ∑ b, counts b := fun b => Finset.single_le_sum (f := counts) (fun _ _ => Nat.zero_le _) (Finset.mem_univ b)
  have hval : 0 < ∑ b, counts b → ∀ b, normalizeRow R counts b = R.rd ((counts b : ℝ) / ((∑ b, counts b : ℕ) : ℝ)) := by
    intro hpos b
    unfold normalizeRow
    simp only [seqSum_counts R counts hlim]
    have : ((∑ b, counts b : ℕ) : ℝ) ≠ 0 := by exact_mod_cast hpos.ne'
    rw [if_neg this]
    rfl
  have hzero : ∑ b, counts b = 0 → ∀ b, normalizeRow R counts b = 0 := by
    intro h0 b
    unfold normalizeRow
    simp only [seqSum_counts R counts hlim]
    rw [h0, Nat.cast_zero, if_pos rfl]
  constructor
  · intro b
    rcases Nat.eq_zero_or_pos (∑ b, counts b) with h0 | hpos
    · rw [hzero h0 b]
      have := hle b
      exact ⟨le_rfl, zero_le_one, by constructor <;> intro <;> [omega; rfl]⟩
    · have hN : (0 : ℝ) < ((∑ b, counts b : ℕ) : ℝ) := by exact_mod_cast hpos
      rw [hval hpos b]
      refine ⟨R.nonneg (by positivity), R.le_of_le R.one ?_, ?_, ?_⟩
      · rw [div_le_one hN]
        exact_mod_cast hle b
      · intro h
        by_contra hc
        have hc' : (0 : ℝ) < counts b := by exact_mod_cast Nat.pos_of_ne_zero hc
        exact absurd h (R.pos (div_pos hc' hN)).ne'
      · intro h
        rw [h, Nat.cast_zero, zero_div, R.zero]
  · intro hpos
    have hN : (0 : ℝ) < ((∑ b, counts b : ℕ) : ℝ) := by exact_mod_cast hpos
    have hone : ∑ b, (counts b : ℝ) / ((∑ b, counts b : ℕ) : ℝ) = 1 := by
      rw [← Finset.sum_div, ← Nat.cast_sum, div_self hN.ne']
    refine ⟨hval hpos, ?_, ?_⟩
    · calc |∑ b, normalizeRow R counts b - 1| = |∑ b, (R.rd ((counts b : ℝ) / ((∑ b, counts b : ℕ) : ℝ)) - (counts b : ℝ) / ((∑ b, counts b : ℕ) : ℝ))| := by
            rw [Finset.sum_sub_distrib, hone]
            congr 2
            exact Finset.sum_congr rfl fun b _ => hval hpos b
        _ ≤ ∑ b, |R.rd ((counts b : ℝ) / ((∑ b, counts b : ℕ) : ℝ)) - (counts b : ℝ) / ((∑ b, counts b : ℕ) : ℝ)| := Finset.abs_sum_le_sum_abs _ _
        _ ≤ ∑ b, R.u * ((counts b : ℝ) / ((∑ b, counts b : ℕ) : ℝ)) := by
            apply Finset.sum_le_sum
            intro b _
            have := R.close ((counts b : ℝ) / ((∑ b, counts b : ℕ) : ℝ))
            rwa [abs_of_nonneg (a := (counts b : ℝ) / ((∑ b, counts b : ℕ) : ℝ)) (by positivity)] at this
        _ = R.u := by rw [← Finset.mul_sum, hone, mul_one]
    · intro b hb
      have h1 : normalizeRow R counts b = 1 := by
        rw [hval hpos b, hb, div_self hN.ne', R.one]
      refine ⟨h1, ?_⟩
      have hother : ∀ c, c ≠ b → counts c = 0 := by
        intro c hc
        have h2 : counts b + counts c ≤ ∑ b, counts b := by
          rw [← Finset.sum_pair (f := counts) (Ne.symm hc)]
          exact Finset.sum_le_sum_of_subset (Finset.subset_univ _)
        omega
      rw [Finset.sum_eq_single b (fun c _ hc => by rw [hval hpos c, hother c hc, Nat.cast_zero, zero_div, R.zero]) (fun h => absurd (Finset.mem_univ b) h), h1]

/-! ## Densities -/

/-- a fraction divided by a rounded width -/
theorem density_near {f w x : ℝ} (hf : 0 ≤ f) (hw : 0 < w) (hx : x = R.rd (R.rd f / w)) : Near R 2 (x * w) f := by
  have hu0 := R.u_nonneg
  have hu1 := R.u_lt_one
  obtain ⟨a1, a2⟩ := R.bounds hf
  have h0 := R.nonneg hf
  obtain ⟨b1, b2⟩ := R.bounds (div_nonneg h0 hw.le)
  subst hx
  have e : R.rd f / w * w = R.rd f := div_mul_cancel₀ _ hw.ne'
  constructor
  · have := mul_le_mul_of_nonneg_right b1 hw.le
    rw [mul_assoc, e] at this
    refine le_trans ?_ this
    rw [pow_two, mul_assoc]
    exact mul_le_mul_of_nonneg_left a1 (by linarith)
  · have := mul_le_mul_of_nonneg_right b2 hw.le
    rw [mul_assoc, e] at this
    refine this.trans ?_
    rw [pow_two, mul_assoc]
    exact mul_le_mul_of_nonneg_left a2 (by linarith)

/-- **C144** The energy dispersion of one true energy and offset: not negative, 0 exactly where there is no event, 0 everywhere without events, otherwise its integral over the migration is 1 up to roundings: between `(1-u)^2/(1+u)` and `(1+u)^2/(1-u)`. -/
theorem C144_energy_dispersion {n : ℕ} (edges : Fin (n + 1) → ℝ) (counts : Fin n → ℕ) (hedges : ∀ b : Fin n, edges b.castSucc < edges b.succ) (hlim : ∑ b, counts b ≤ R.limit) :
    (∀ b, 0 ≤ normalizeHist R edges counts b ∧ (normalizeHist R edges counts b = 0 ↔ counts b = 0)) ∧
    (0 < ∑ b, counts b →
      (1 - R.u) ^ 2 / (1 + R.u) ≤ ∑ b, normalizeHist R edges counts b * (edges b.succ - edges b.castSucc) ∧
      ∑ b, normalizeHist R edges counts b * (edges b.succ - edges b.castSucc) ≤ (1 + R.u) ^ 2 / (1 - R.u)) := by
  have hu0 := R.u_nonneg
  have hu1 := R.u_lt_one
  have hle : ∀ b, counts b ≤ ∑ b, counts b := fun b => Finset.single_le_sum (f := counts) (fun _ _ => Nat.zero_le _) (Finset.mem_univ b)
  have hwpos : ∀ b : Fin n, 0 < R.sub (edges b.succ) (edges b.castSucc) := fun b => R.pos (by linarith [hedges b])
  have hval : 0 < ∑ b, counts b → ∀ b, normalizeHist R edges counts b = R.rd (R.rd ((counts b : ℝ) / ((∑ b, counts b : ℕ) : ℝ)) / R.sub (edges b.succ) (edges b.castSucc)) := by
    intro hpos b
    unfold normalizeHist
    simp only [seqSum_counts R counts hlim]
    have : ((∑ b, counts b : ℕ) : ℝ) ≠ 0 := by exact_mod_cast hpos.ne'
    rw [if_neg this]
    rfl
  constructor
  · intro b
    rcases Nat.eq_zero_or_pos (∑ b, counts b) with h0 | hpos
    · have hz : normalizeHist R edges counts b = 0 := by
        unfold normalizeHist
        simp only [seqSum_counts R counts hlim]
        rw [h0, Nat.cast_zero, if_pos rfl]
      rw [hz]
      have := hle b
      exact ⟨le_rfl, by constructor <;> intro <;> [omega; rfl]⟩
    · have hN : (0 : ℝ) < ((∑ b, counts b : ℕ) : ℝ) := by exact_mod_cast hpos
      rw [hval hpos b]
      refine ⟨R.nonneg (div_nonneg (R.nonneg (by positivity)) (hwpos b).le), ?_, ?_⟩
      · intro h
        by_contra hc
        have hc' : (0 : ℝ) < counts b := by exact_mod_cast Nat.pos_of_ne_zero hc
        exact absurd h (R.pos (div_pos (R.pos (div_pos hc' hN)) (hwpos b))).ne'
      · intro h
        rw [h, Nat.cast_zero, zero_div, R.zero, zero_div, R.zero]
  · intro hpos
    have hN : (0 : ℝ) < ((∑ b, counts b : ℕ) : ℝ) := by exact_mod_cast hpos
    have hone : ∑ b, (counts b : ℝ) / ((∑ b, counts b : ℕ) : ℝ) = 1 := by
      rw [← Finset.sum_div, ← Nat.cast_sum, div_self hN.ne']
    have hb : ∀ b : Fin n, (1 - R.u) ^ 2 / (1 + R.u) * ((counts b : ℝ) / ((∑ b, counts b : ℕ) : ℝ)) ≤ normalizeHist R edges counts b * (edges b.succ - edges b.castSucc) ∧
        normalizeHist R edges counts b * (edges b.succ - edges b.castSucc) ≤ (1 + R.u) ^ 2 / (1 - R.u) * ((counts b : ℝ) / ((∑ b, counts b : ℕ) : ℝ)) := by
      intro b
      have hd : 0 < edges b.succ - edges b.castSucc := by linarith [hedges b]
      have hnear := density_near R (f := (counts b : ℝ) / ((∑ b, counts b : ℕ) : ℝ)) (by positivity) (hwpos b) (hval hpos b)
      obtain ⟨w1, w2⟩ := R.bounds hd.le
      have hx0 : 0 ≤ normalizeHist R edges counts b := by
        rw [hval hpos b]
        exact R.nonneg (div_nonneg (R.nonneg (by positivity)) (hwpos b).le)
      obtain ⟨n1, n2⟩ := hnear
      unfold Rounding.sub at n1 n2
      constructor
      · rw [div_mul_eq_mul_div, div_le_iff₀ (by linarith)]
        refine n1.trans ?_
        have := mul_le_mul_of_nonneg_left w2 hx0
        linarith
      · rw [div_mul_eq_mul_div, le_div_iff₀ (by linarith)]
        refine le_trans ?_ n2
        have := mul_le_mul_of_nonneg_left w1 hx0
        linarith
    constructor
    · calc (1 - R.u) ^ 2 / (1 + R.u) = ∑ b, (1 - R.u) ^ 2 / (1 + R.u) * ((counts b : ℝ) / ((∑ b, counts b : ℕ) : ℝ)) := by rw [← Finset.mul_sum, hone, mul_one]
        _ ≤ _ := Finset.sum_le_sum fun b _ => (hb b).1
    · calc _ ≤ ∑ b, (1 + R.u) ^ 2 / (1 - R.u) * ((counts b : ℝ) / ((∑ b, counts b : ℕ) : ℝ)) := Finset.sum_le_sum fun b _ => (hb b).2
        _ = (1 + R.u) ^ 2 / (1 - R.u) := by rw [← Finset.mul_sum, hone, mul_one]

/-! ## Solid angles -/

/-- **C144** The solid angles of cones grow with the opening angle and those of annuli are not negative, if numpy's cosine decreases between 0 and 180 degrees (at most 1). -/
theorem C144_solid_angle (pi : ℝ) (hpi : 0 ≤ pi) (cos : ℝ → ℝ) (hcos : AntitoneOn cos (Set.Icc 0 Real.pi)) (h1 : ∀ x, cos x ≤ 1) :
    (∀ x, 0 ≤ coneSolidAngle R pi cos x) ∧ (∀ x y, 0 ≤ x → x ≤ y → y ≤ Real.pi → coneSolidAngle R pi cos x ≤ coneSolidAngle R pi cos y) ∧
    ∀ {n : ℕ} (edges : Fin (n + 1) → ℝ) (b : Fin n), 0 ≤ edges b.castSucc → edges b.castSucc ≤ edges b.succ → edges b.succ ≤ Real.pi → 0 ≤ annulus R pi cos edges b := by
  have h2 : 0 ≤ R.mul 2 pi := R.nonneg (by linarith)
  have hmono : ∀ x y, 0 ≤ x → x ≤ y → y ≤ Real.pi → coneSolidAngle R pi cos x ≤ coneSolidAngle R pi cos y := by
    intro x y hx hxy hy
    have h3 := hcos ⟨hx, hxy.trans hy⟩ ⟨hx.trans hxy, hy⟩ hxy
    refine R.mono (mul_le_mul_of_nonneg_left (R.mono ?_) h2)
    linarith
  refine ⟨fun x => R.nonneg (mul_nonneg h2 (R.nonneg (by linarith [h1 x]))), hmono, ?_⟩
  intro n edges b hb0 hb1 hb2
  refine R.nonneg ?_
  linarith [hmono _ _ hb0 hb1 hb2]

/-- **C144** (error) The computed solid angles of cones and annuli differ from the exact ones by at most 20π and 46π times the rounding unit, if numpy's cosine and pi are within one unit of the exact values. -/
theorem C144_solid_angle_error (hu : R.u ≤ 1 / 100) (pi : ℝ) (hpi : |pi - Real.pi| ≤ R.u * Real.pi) (cos : ℝ → ℝ) (hcos : ∀ x, |cos x| ≤ 1 ∧ |cos x - Real.cos x| ≤ R.u) :
    (∀ x, |coneSolidAngle R pi cos x - 2 * Real.pi * (1 - Real.cos x)| ≤ 20 * Real.pi * R.u) ∧
    ∀ {n : ℕ} (edges : Fin (n + 1) → ℝ) (b : Fin n), |annulus R pi cos edges b - 2 * Real.pi * (Real.cos (edges b.castSucc) - Real.cos (edges b.succ))| ≤ 46 * Real.pi * R.u := by
  have hP := Real.pi_pos
  have hu0 := R.u_nonneg
  have hpi1 := abs_le.1 hpi
  have hpi0 : 0 ≤ pi := by nlinarith
  have hpiU : pi ≤ 1.01 * Real.pi := by nlinarith
  -- 2 pi
  have hm := abs_le.1 (R.close (2 * pi))
  rw [abs_of_nonneg (by linarith : (0:ℝ) ≤ 2 * pi)] at hm
  have hm1 : |R.mul 2 pi - 2 * Real.pi| ≤ 4.02 * Real.pi * R.u := by
    unfold Rounding.mul
    have : R.u * (2 * pi) ≤ R.u * (2 * (1.01 * Real.pi)) := mul_le_mul_of_nonneg_left (by linarith) hu0
    rw [abs_le]; constructor <;> nlinarith
  have hmU : R.mul 2 pi ≤ 2.0402 * Real.pi := by
    have := (abs_le.1 hm1).2
    nlinarith
  have hm0 : 0 ≤ R.mul 2 pi := R.nonneg (by linarith)
  have hcone : ∀ x, |coneSolidAngle R pi cos x - 2 * Real.pi * (1 - Real.cos x)| ≤ 20 * Real.pi * R.u ∧ 0 ≤ coneSolidAngle R pi cos x ∧ coneSolidAngle R pi cos x ≤ 4.2 * Real.pi := by
    intro x
    obtain ⟨c1, c2⟩ := hcos x
    have c1' := abs_le.1 c1
    have c2' := abs_le.1 c2
    have hs := abs_le.1 (R.close (1 - cos x))
    rw [abs_of_nonneg (by linarith : (0:ℝ) ≤ 1 - cos x)] at hs
    have hsb : R.u * (1 - cos x) ≤ R.u * 2 := mul_le_mul_of_nonneg_left (by linarith) hu0
    have hs1 : |R.sub 1 (cos x) - (1 - Real.cos x)| ≤ 3 * R.u := by
      unfold Rounding.sub
      rw [abs_le]; constructor <;> linarith
    have hs0 : 0 ≤ R.sub 1 (cos x) := R.nonneg (by linarith)
    have hsU : R.sub 1 (cos x) ≤ 2.02 := by unfold Rounding.sub; linarith
    have hx0 : 0 ≤ 1 - Real.cos x := by linarith [Real.cos_le_one x]
    have hx1 : 1 - Real.cos x ≤ 2 := by linarith [Real.neg_one_le_cos x]
    have hprod0 : 0 ≤ R.mul 2 pi * R.sub 1 (cos x) := mul_nonneg hm0 hs0
    have hprodU : R.mul 2 pi * R.sub 1 (cos x) ≤ 4.1213 * Real.pi := by
      have := mul_le_mul hmU hsU hs0 (by linarith)
      linarith
    have hr := R.close (R.mul 2 pi * R.sub 1 (cos x))
    rw [abs_of_nonneg hprod0] at hr
    have hr' : R.u * (R.mul 2 pi * R.sub 1 (cos x)) ≤ R.u * (4.1213 * Real.pi) := mul_le_mul_of_nonneg_left hprodU hu0
    have e1 : R.mul 2 pi * R.sub 1 (cos x) - 2 * Real.pi * (1 - Real.cos x) =
        R.mul 2 pi * (R.sub 1 (cos x) - (1 - Real.cos x)) + (R.mul 2 pi - 2 * Real.pi) * (1 - Real.cos x) := by ring
    have e2 : |R.mul 2 pi * R.sub 1 (cos x) - 2 * Real.pi * (1 - Real.cos x)| ≤ 2.0402 * Real.pi * (3 * R.u) + 4.02 * Real.pi * R.u * 2 := by
      rw [e1]
      refine (abs_add_le _ _).trans (add_le_add ?_ ?_)
      · rw [abs_mul, abs_of_nonneg hm0]
        exact mul_le_mul hmU hs1 (abs_nonneg _) (by linarith)
      · rw [abs_mul, abs_of_nonneg hx0]
        exact mul_le_mul hm1 hx1 hx0 (by positivity)
    have e3 : coneSolidAngle R pi cos x = R.rd (R.mul 2 pi * R.sub 1 (cos x)) := rfl
    refine ⟨?_, by rw [e3]; exact R.nonneg hprod0, ?_⟩
    · have := (abs_sub_le (coneSolidAngle R pi cos x) (R.mul 2 pi * R.sub 1 (cos x)) (2 * Real.pi * (1 - Real.cos x))).trans (add_le_add (hr.trans hr') e2)
      nlinarith
    · have := (abs_le.1 (hr.trans hr')).2
      rw [e3]
      nlinarith
  refine ⟨fun x => (hcone x).1, fun edges b => ?_⟩
  obtain ⟨a1, a2, a3⟩ := hcone (edges b.succ)
  obtain ⟨b1, b2, b3⟩ := hcone (edges b.castSucc)
  have a1' := abs_le.1 a1
  have b1' := abs_le.1 b1
  have hr := R.close (coneSolidAngle R pi cos (edges b.succ) - coneSolidAngle R pi cos (edges b.castSucc))
  have hd : |coneSolidAngle R pi cos (edges b.succ) - coneSolidAngle R pi cos (edges b.castSucc)| ≤ 4.2 * Real.pi := by
    rw [abs_le]; constructor <;> linarith
  have hr' := abs_le.1 (hr.trans (mul_le_mul_of_nonneg_left hd hu0))
  unfold annulus Rounding.sub
  rw [abs_le]
  constructor <;> nlinarith

/-- **C144** The point spread function of one energy and offset: not negative, 0 exactly where there is no event, and with events its integral over the computed solid angles is 1 up to two roundings, if these are positive. -/
theorem C144_psf {n : ℕ} (pi : ℝ) (cos : ℝ → ℝ) (edges : Fin (n + 1) → ℝ) (counts : Fin n → ℕ) (hpos : ∀ b, 0 < annulus R pi cos edges b) (hlim : ∑ b, counts b ≤ R.limit) :
    (∀ b, 0 ≤ normalizePsf R pi cos edges counts b ∧ (normalizePsf R pi cos edges counts b = 0 ↔ counts b = 0)) ∧
    (0 < ∑ b, counts b → Near R 2 (∑ b, normalizePsf R pi cos edges counts b * annulus R pi cos edges b) 1) := by
  obtain ⟨hrow, hsum⟩ := C144_migration R counts hlim
  constructor
  · intro b
    obtain ⟨h0, _, h1⟩ := hrow b
    refine ⟨R.nonneg (div_nonneg h0 (hpos b).le), ?_⟩
    rw [← h1]
    constructor
    · intro h
      by_contra hc
      exact absurd h (R.pos (div_pos (lt_of_le_of_ne h0 (Ne.symm hc)) (hpos b))).ne'
    · intro h
      unfold normalizePsf Rounding.div
      rw [h, zero_div, R.zero]
  · intro hp
    obtain ⟨hval, _⟩ := hsum hp
    have hN : (0 : ℝ) < ((∑ b, counts b : ℕ) : ℝ) := by exact_mod_cast hp
    have hone : ∑ b, (counts b : ℝ) / ((∑ b, counts b : ℕ) : ℝ) = 1 := by
      rw [← Finset.sum_div, ← Nat.cast_sum, div_self hN.ne']
    have hb : ∀ b, Near R 2 (normalizePsf R pi cos edges counts b * annulus R pi cos edges b) ((counts b : ℝ) / ((∑ b, counts b : ℕ) : ℝ)) := by
      intro b
      refine density_near R (by positivity) (hpos b) ?_
      unfold normalizePsf
      rw [hval b]
      rfl
    constructor
    · calc (1 - R.u) ^ 2 * 1 = ∑ b, (1 - R.u) ^ 2 * ((counts b : ℝ) / ((∑ b, counts b : ℕ) : ℝ)) := by rw [← Finset.mul_sum, hone]
        _ ≤ _ := Finset.sum_le_sum fun b _ => (hb b).1
    · calc _ ≤ ∑ b, (1 + R.u) ^ 2 * ((counts b : ℝ) / ((∑ b, counts b : ℕ) : ℝ)) := Finset.sum_le_sum fun b _ => (hb b).2
        _ = (1 + R.u) ^ 2 * 1 := by rw [← Finset.mul_sum, hone]

/-- **C144** (deviation) The solid angle of a cone is 0 for opening angles whose square is at most `2^-p` (p bits, cosine rounded to nearest): 1 - cos is 0 then, so the PSF of a first bin that narrow is divided by 0. -/
theorem C144_solid_angle_zero (p : ℕ) (hp : 1 ≤ p) (pi x : ℝ) (hx : x ^ 2 ≤ (2 : ℝ)⁻¹ ^ p) :
    coneSolidAngle (Rounding.binary p hp) pi (fun x => (Rounding.binary p hp).rd (Real.cos x)) x = 0 := by
  set R := Rounding.binary p hp with hR
  have hp2 : (0 : ℝ) < 2 ^ p := by positivity
  have hcos : R.rd (Real.cos x) = 1 := by
    apply le_antisymm (R.le_of_le R.one (Real.cos_le_one x))
    have h1 : 1 - x ^ 2 / 2 ≤ Real.cos x := Real.one_sub_sq_div_two_le_cos
    rcases (Real.cos_le_one x).eq_or_lt with he | hlt
    · rw [he, R.one]
    have hhalf : (2 : ℝ)⁻¹ ^ p ≤ 2⁻¹ := by
      calc (2 : ℝ)⁻¹ ^ p ≤ 2⁻¹ ^ 1 := pow_le_pow_of_le_one (by norm_num) (by norm_num) hp
        _ = 2⁻¹ := pow_one _
    have hc2 : 1 / 2 ≤ Real.cos x := by
      have : (2 : ℝ)⁻¹ = 1 / 2 := by norm_num
      linarith
    have hcpos : 0 < Real.cos x := by linarith
    have hval : R.rd (Real.cos x) = Binary.rdPos p (Real.cos x) := Binary.rd_of_pos p hcpos
    have hlog : Int.log 2 (Real.cos x) = -1 := by
      apply le_antisymm
      · have h2 : (2 : ℝ) ^ (Int.log 2 (Real.cos x)) < 2 ^ (0 : ℤ) := by
          rw [zpow_zero]
          exact lt_of_le_of_lt (Binary.log_le hcpos) hlt
        have := (zpow_lt_zpow_iff_right₀ (show (1 : ℝ) < 2 by norm_num)).mp h2
        omega
      · have h2 : (2 : ℝ) ^ (-1 : ℤ) < 2 ^ (Int.log 2 (Real.cos x) + 1) := by
          refine lt_of_le_of_lt ?_ Binary.lt_log
          rw [zpow_neg, zpow_one]
          linarith
        have := (zpow_lt_zpow_iff_right₀ (show (1 : ℝ) < 2 by norm_num)).mp h2
        omega
    have hulp : Binary.ulp p (Real.cos x) = 2⁻¹ ^ p := by
      unfold Binary.ulp
      rw [hlog, show (-1 : ℤ) - p + 1 = -(p : ℤ) by ring, zpow_neg, zpow_natCast, inv_pow]
    rw [hval]
    unfold Binary.rdPos
    rw [hulp, inv_pow, div_inv_eq_mul]
    have hfl : (2 ^ p : ℤ) ≤ ⌊Real.cos x * 2 ^ p + 1 / 2⌋ := by
      rw [Int.le_floor]
      push_cast
      have h3 : x ^ 2 * 2 ^ p ≤ 1 := by
        rw [inv_pow] at hx
        calc x ^ 2 * 2 ^ p ≤ (2 ^ p)⁻¹ * 2 ^ p := by gcongr
          _ = 1 := inv_mul_cancel₀ hp2.ne'
      nlinarith
    have hfl' : (2 : ℝ) ^ p ≤ ((⌊Real.cos x * 2 ^ p + 1 / 2⌋ : ℤ) : ℝ) := by exact_mod_cast hfl
    calc (1 : ℝ) = 2 ^ p * (2 ^ p)⁻¹ := (mul_inv_cancel₀ hp2.ne').symm
      _ ≤ _ := by gcongr
  unfold coneSolidAngle Rounding.sub Rounding.mul
  simp only []
  rw [hcos, sub_self, R.zero, mul_zero, R.zero]

/-- **C144** The background rate: not negative, 0 for an empty bin, larger for a larger content. -/
theorem C144_background (c d width time omega : ℝ) (hc : 0 ≤ c) (hcd : c ≤ d) (hw : 0 < width) (ht : 0 < time) (ho : 0 < omega) :
    0 ≤ backgroundRate R c width time omega ∧ backgroundRate R c width time omega ≤ backgroundRate R d width time omega ∧ backgroundRate R 0 width time omega = 0 ∧
    Near R 3 (backgroundRate R c width time omega) (c / width / time / omega) := by
  have step : ∀ (k : ℕ) (x X y : ℝ), 0 ≤ X → 0 < y → Near R k x X → Near R (k + 1) (R.div x y) (X / y) := by
    intro k x X y hX hy hn
    have hu0 := R.u_nonneg
    have hu1 := R.u_lt_one
    have hx : 0 ≤ x := le_trans (mul_nonneg (pow_bounds R k).1.le hX) hn.1
    obtain ⟨b1, b2⟩ := R.bounds (div_nonneg hx hy.le)
    constructor
    · refine le_trans ?_ b1
      rw [pow_succ, mul_comm _ (1 - R.u), mul_assoc, ← mul_div_assoc ((1 - R.u) ^ k)]
      exact mul_le_mul_of_nonneg_left (div_le_div_of_nonneg_right hn.1 hy.le) (by linarith)
    · refine b2.trans ?_
      rw [pow_succ, mul_comm _ (1 + R.u), mul_assoc, ← mul_div_assoc ((1 + R.u) ^ k)]
      exact mul_le_mul_of_nonneg_left (div_le_div_of_nonneg_right hn.2 hy.le) (by linarith)
  have mono : ∀ x y z : ℝ, x ≤ y → 0 < z → R.div x z ≤ R.div y z := fun x y z h hz => R.mono (by gcongr)
  have nn : ∀ x z : ℝ, 0 ≤ x → 0 < z → 0 ≤ R.div x z := fun x z h hz => R.nonneg (div_nonneg h hz.le)
  have z : ∀ z : ℝ, R.div 0 z = 0 := fun z => by unfold Rounding.div; rw [zero_div, R.zero]
  refine ⟨nn _ _ (nn _ _ (nn _ _ hc hw) ht) ho, mono _ _ _ (mono _ _ _ (mono _ _ _ hcd hw) ht) ho, by unfold backgroundRate; simp only [z], ?_⟩
  exact step 2 _ _ _ (by positivity) ho (step 1 _ _ _ (by positivity) ht (step 0 _ _ _ hc hw (near_refl R c)))

/-! ## The hypotheses can be met -/

/-- binary64: 3, 0 and 5 events -/
example : ∑ b : Fin 3, (![3, 0, 5] : Fin 3 → ℕ) b ≤ (Rounding.binary 53 (by norm_num)).limit := by
  have : (Rounding.binary 53 (by norm_num)).limit = 2 ^ 53 := rfl
  rw [this]
  decide

/-- the cosine rounded to nearest decreases -/
example (p : ℕ) (hp : 1 ≤ p) : AntitoneOn (fun x => (Rounding.binary p hp).rd (Real.cos x)) (Set.Icc 0 Real.pi) :=
  fun _ hx _ hy hxy => (Rounding.binary p hp).mono (Real.strictAntiOn_cos.antitoneOn hx hy hxy)

end Pyirf.Rounded
