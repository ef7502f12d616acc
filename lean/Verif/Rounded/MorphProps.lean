import Verif.Rounded.MorphModel
import Verif.Rounded.LiMaProps
import Verif.Interpolation.MorphLemmas

/-!
# Moment morphing in rounded arithmetic (C163)
-/
set_option linter.unusedSectionVars false
set_option linter.unusedSimpArgs false

namespace Pyirf.Rounded
open Pyirf Pyirf.Np

variable {R : Rounding}

/-- What the sum of numpy along the last axis is relied on for: up to `k` roundings it is the sum of numbers that are not negative, and a sum with at most one number that is not 0 is exact. (Any order of additions has both properties.) -/
structure SumOf (R : Rounding) (k n : ℕ) (S : List ℝ → ℝ) : Prop where
  near : ∀ x : Fin (n + 1) → ℝ, (∀ b, 0 ≤ x b) → Near R k (S (List.ofFn x)) (∑ b, x b)
  single : ∀ (x : Fin (n + 1) → ℝ) (b : Fin (n + 1)), R.Is (x b) → (∀ c, c ≠ b → x c = 0) → S (List.ofFn x) = x b

theorem foldl_zeros (l : List ℝ) (h : ∀ x ∈ l, x = 0) (s : ℝ) (hs : R.Is s) : l.foldl R.add s = s := by
  induction l with
  | nil => rfl
  | cons a l ih =>
    have ha : a = 0 := h a (by simp)
    have : R.add s a = s := by
      unfold Rounding.add
      rw [ha, add_zero]
      exact hs
    rw [List.foldl_cons, this]
    exact ih fun x hx => h x (by simp [hx])

theorem seqSum_single {k : ℕ} (f : Fin k → ℝ) (i : Fin k) (hi : R.Is (f i)) (h : ∀ j, j ≠ i → f j = 0) : seqSum R (List.ofFn f) = f i := by
  induction k with
  | zero => exact i.elim0
  | succ k ih =>
    rw [List.ofFn_succ]
    unfold seqSum
    rw [List.foldl_cons]
    rcases Fin.eq_zero_or_eq_succ i with h0 | ⟨j, hj⟩
    · subst h0
      have : R.add 0 (f 0) = f 0 := by
        unfold Rounding.add
        rw [zero_add]
        exact hi
      rw [this]
      refine foldl_zeros _ ?_ _ hi
      intro x hx
      obtain ⟨j, rfl⟩ := (List.mem_ofFn' _ _).mp hx
      exact h _ (Fin.succ_ne_zero j)
    · subst hj
      have h0 : f 0 = 0 := h 0 (Fin.succ_ne_zero j).symm
      have : R.add 0 (f 0) = 0 := by
        unfold Rounding.add
        rw [h0, add_zero, R.zero]
      rw [this]
      exact ih (fun j => f j.succ) j hi fun j' hj' => h _ fun he => hj' (Fin.succ_injective _ he)

/-- Adding one number after the other is such a sum. -/
theorem seqSum_sumOf (n : ℕ) : SumOf R (n + 1) n (seqSum R) where
  near x hx := by
    have := seqSum_near R (List.ofFn x) (by intro w hw; obtain ⟨b, rfl⟩ := (List.mem_ofFn' _ _).mp hw; exact hx b)
    rwa [List.length_ofFn, List.sum_ofFn] at this
  single x b hb h := seqSum_single x b hb h

theorem one_mul_is {x : ℝ} (h : R.Is x) : R.mul 1 x = x := by
  unfold Rounding.mul
  rw [one_mul]
  exact h

theorem mul_one_is {x : ℝ} (h : R.Is x) : R.mul x 1 = x := by
  unfold Rounding.mul
  rw [mul_one]
  exact h

theorem zero_mul_rd (x : ℝ) : R.mul 0 x = 0 := by
  unfold Rounding.mul
  rw [zero_mul, R.zero]

theorem mul_zero_rd (x : ℝ) : R.mul x 0 = 0 := by
  unfold Rounding.mul
  rw [mul_zero, R.zero]

theorem segment_eq (g0 g1 t : ℝ) : segmentCoefficients R g0 g1 t 1 = R.mul (R.sub t g0) (R.div 1 (R.sub g1 g0)) ∧
    segmentCoefficients R g0 g1 t 0 = R.sub 1 (R.mul (R.sub t g0) (R.div 1 (R.sub g1 g0))) := by
  have h1 : R.mul 1 1 = 1 := one_mul_is R.one
  have h2 : R.div (-1) (R.sub g1 g0) = -R.div 1 (R.sub g1 g0) := by
    unfold Rounding.div
    rw [neg_div, R.neg]
  constructor
  · show R.add (R.mul 1 0) (R.mul (R.sub t g0) (R.div 1 (R.sub g1 g0))) = _
    rw [mul_zero_rd]
    unfold Rounding.add
    rw [zero_add]
    exact R.idem _
  · show R.add (R.mul 1 1) (R.mul (R.sub t g0) (R.div (-1) (R.sub g1 g0))) = _
    rw [h1, h2]
    have : R.mul (R.sub t g0) (-R.div 1 (R.sub g1 g0)) = -R.mul (R.sub t g0) (R.div 1 (R.sub g1 g0)) := by
      unfold Rounding.mul
      rw [mul_neg, R.neg]
    rw [this]
    unfold Rounding.add Rounding.sub
    rw [← sub_eq_add_neg]

/-- **C163** The coefficients between two grid points: exactly 1 and 0 at the lower one; the second never negative, not decreasing with the target and, up to four roundings, `(t - g0) / (g1 - g0)`; their sum is 1 up to one rounding. -/
theorem C163_coefficients {g0 g1 t : ℝ} (h : g0 < g1) (ht : g0 ≤ t) :
    segmentCoefficients R g0 g1 g0 0 = 1 ∧ segmentCoefficients R g0 g1 g0 1 = 0 ∧ 0 ≤ segmentCoefficients R g0 g1 t 1 ∧
    (∀ t', t ≤ t' → segmentCoefficients R g0 g1 t 1 ≤ segmentCoefficients R g0 g1 t' 1 ∧ segmentCoefficients R g0 g1 t' 0 ≤ segmentCoefficients R g0 g1 t 0) ∧
    (1 - R.u) ^ 3 / (1 + R.u) * ((t - g0) / (g1 - g0)) ≤ segmentCoefficients R g0 g1 t 1 ∧
    segmentCoefficients R g0 g1 t 1 ≤ (1 + R.u) ^ 3 / (1 - R.u) * ((t - g0) / (g1 - g0)) ∧
    |segmentCoefficients R g0 g1 t 0 + segmentCoefficients R g0 g1 t 1 - 1| ≤ R.u * |1 - segmentCoefficients R g0 g1 t 1| := by
  have hu := R.u_nonneg
  have hu1 : 0 < 1 - R.u := by linarith [R.u_lt_one]
  have hD : 0 < g1 - g0 := sub_pos.mpr h
  have hd : 0 < R.sub g1 g0 := R.pos hD
  have hr : 0 < R.div 1 (R.sub g1 g0) := R.pos (one_div_pos.mpr hd)
  have hT : 0 ≤ t - g0 := sub_nonneg.mpr ht
  have hδ : 0 ≤ R.sub t g0 := R.nonneg hT
  have h0 : R.sub g0 g0 = 0 := by
    unfold Rounding.sub
    rw [sub_self, R.zero]
  obtain ⟨d1, d2⟩ : (1 - R.u) * (g1 - g0) ≤ R.sub g1 g0 ∧ R.sub g1 g0 ≤ (1 + R.u) * (g1 - g0) := R.bounds hD.le
  obtain ⟨s1, s2⟩ : (1 - R.u) * (t - g0) ≤ R.sub t g0 ∧ R.sub t g0 ≤ (1 + R.u) * (t - g0) := R.bounds hT
  obtain ⟨r1, r2⟩ : (1 - R.u) * (1 / R.sub g1 g0) ≤ R.div 1 (R.sub g1 g0) ∧ R.div 1 (R.sub g1 g0) ≤ (1 + R.u) * (1 / R.sub g1 g0) := R.bounds (one_div_pos.mpr hd).le
  obtain ⟨c1, c2⟩ := R.bounds (mul_nonneg hδ hr.le)
  have e1 : 1 / ((1 + R.u) * (g1 - g0)) ≤ 1 / R.sub g1 g0 := one_div_le_one_div_of_le hd d2
  have e2 : 1 / R.sub g1 g0 ≤ 1 / ((1 - R.u) * (g1 - g0)) := one_div_le_one_div_of_le (mul_pos hu1 hD) d1
  simp only [(segment_eq g0 g1 _).1, (segment_eq g0 g1 _).2]
  refine ⟨?_, ?_, R.nonneg (mul_nonneg hδ hr.le), ?_, ?_, ?_, ?_⟩
  · rw [h0, zero_mul_rd]
    unfold Rounding.sub
    rw [sub_zero, R.one]
  · rw [h0, zero_mul_rd]
  · intro t' htt
    have : R.mul (R.sub t g0) (R.div 1 (R.sub g1 g0)) ≤ R.mul (R.sub t' g0) (R.div 1 (R.sub g1 g0)) :=
      R.mono (mul_le_mul_of_nonneg_right (R.mono (sub_le_sub_right htt g0)) hr.le)
    exact ⟨this, R.mono (by linarith)⟩
  · refine le_trans (le_trans (le_of_eq ?_) (mul_le_mul_of_nonneg_left (mul_le_mul s1 ((mul_le_mul_of_nonneg_left e1 hu1.le).trans r1) (by positivity) hδ) hu1.le)) c1
    field_simp
  · refine c2.trans (le_trans (mul_le_mul_of_nonneg_left (mul_le_mul s2 (r2.trans (mul_le_mul_of_nonneg_left e2 (by linarith))) hr.le (mul_nonneg (by linarith) hT)) (by linarith)) (le_of_eq ?_))
    field_simp
  · have := R.close (1 - R.mul (R.sub t g0) (R.div 1 (R.sub g1 g0)))
    refine le_of_eq_of_le ?_ this
    congr 1
    show R.rd _ + _ - 1 = _
    ring

/-- a standard deviation that is returned is a positive floating point number -/
theorem std_pos {n : ℕ} {S : List ℝ → ℝ} {edges : Fin (n + 2) → ℝ} (h : StrictMono edges) {width p : Fin (n + 1) → ℝ} {s : ℝ} (hs : pdfStd R S edges width p = .ok s) : R.Is s ∧ 0 < s := by
  unfold pdfStd at hs
  dsimp only at hs
  split at hs
  · split at hs
    · cases hs
      refine ⟨R.idem _, R.pos (mul_pos (R.pos (Real.sqrt_pos.mpr (R.pos (by norm_num)))) (R.pos (sub_pos.mpr (h ?_))))⟩
      exact Fin.castSucc_lt_succ
    · cases hs
  · rename_i hne
    cases hs
    exact ⟨R.idem _, lt_of_le_of_ne (R.nonneg (Real.sqrt_nonneg _)) (Ne.symm hne)⟩

theorem lookup_at_mid {n : ℕ} {edges : Fin (n + 2) → ℝ} (h : StrictMono edges) (p : Fin (n + 1) → ℝ) {x : ℝ} {b : Fin (n + 1)} (h1 : edges b.castSucc ≤ x) (h2 : x < edges b.succ) :
    Interpolation.lookup edges p (.fin x) = p b := by
  rw [Interpolation.lookup_eq h, Interpolation.heightAt_of h p h1 h2]

theorem morphed_node {k n : ℕ} {edges : Fin (n + 2) → ℝ} (h : StrictMono edges) (hmid : ∀ b : Fin (n + 1), edges b.castSucc ≤ mid R edges b ∧ mid R edges b < edges b.succ)
    (p : Fin k → Fin (n + 1) → ℝ) (i : Fin k) (hp : ∀ b, R.Is (p i b)) (mu sig : Fin k → ℝ) (hmu : R.Is (mu i)) (hsig : R.Is (sig i) ∧ 0 < sig i) (b : Fin (n + 1)) :
    morphed R edges p (Pi.single i 1) mu sig b = p i b := by
  have hm : seqSum R (List.ofFn fun j => R.mul ((Pi.single i 1 : Fin k → ℝ) j) (mu j)) = mu i := by
    rw [seqSum_single _ i, Pi.single_eq_same, one_mul_is hmu]
    · rw [Pi.single_eq_same, one_mul_is hmu]; exact hmu
    · intro j hj
      rw [Pi.single_eq_of_ne hj, zero_mul_rd]
  have hs : seqSum R (List.ofFn fun j => R.mul ((Pi.single i 1 : Fin k → ℝ) j) (sig j)) = sig i := by
    rw [seqSum_single _ i, Pi.single_eq_same, one_mul_is hsig.1]
    · rw [Pi.single_eq_same, one_mul_is hsig.1]; exact hsig.1
    · intro j hj
      rw [Pi.single_eq_of_ne hj, zero_mul_rd]
  have ha : R.div (sig i) (sig i) = 1 := by
    unfold Rounding.div
    rw [div_self hsig.2.ne', R.one]
  have hoff : R.sub (mu i) (R.mul (mu i) 1) = 0 := by
    rw [mul_one_is hmu]
    unfold Rounding.sub
    rw [sub_self, R.zero]
  have hmidIs : R.Is (mid R edges b) := R.idem _
  have hx : R.add (R.mul 1 (mid R edges b)) 0 = mid R edges b := by
    rw [one_mul_is hmidIs]
    unfold Rounding.add
    rw [add_zero]
    exact hmidIs
  have hterm : R.mul (R.mul ((Pi.single i 1 : Fin k → ℝ) i) (Interpolation.lookup edges (p i) (.fin (R.add (R.mul (R.div (sig i) (sig i)) (mid R edges b)) (R.sub (mu i) (R.mul (mu i) (R.div (sig i) (sig i)))))))) (R.div (sig i) (sig i)) = p i b := by
    rw [ha, hoff, hx, lookup_at_mid h (p i) (hmid b).1 (hmid b).2, Pi.single_eq_same, one_mul_is (hp b), mul_one_is (hp b)]
  unfold morphed
  simp only [hm, hs]
  rw [seqSum_single _ i]
  · exact hterm
  · rw [hterm]; exact hp b
  · intro j hj
    rw [Pi.single_eq_of_ne hj, zero_mul_rd, zero_mul_rd]

/-- **C163** At a grid node (coefficient 1 for one template, 0 for the others) the estimate is the template divided by its integral as computed: exactly the template if that is 1, and otherwise, if the exact integral is 1, up to `k + 2` roundings. -/
theorem C163_node {k n m : ℕ} {S : List ℝ → ℝ} (hS : SumOf R m n S) {edges : Fin (n + 2) → ℝ} (h : StrictMono edges)
    (hmid : ∀ b : Fin (n + 1), edges b.castSucc ≤ binCenter R (edges b.castSucc) (edges b.succ) ∧ binCenter R (edges b.castSucc) (edges b.succ) < edges b.succ)
    (width : Fin (n + 1) → ℝ) (hw : ∀ b, 0 < width b) (p : Fin k → Fin (n + 1) → ℝ) (i : Fin k) (hp : ∀ b, R.Is (p i b)) (h0 : ∀ b, 0 ≤ p i b) (hpos : ∃ b, p i b ≠ 0)
    (hz : ∀ j, 1 / 10 ^ 8 < |S (List.ofFn (p j))|) (hs : ∀ j, ∃ s, pdfStd R S edges width (p j) = .ok s) :
    ∃ r, momentMorph R S edges width p (Pi.single i 1) = .ok r ∧ (∀ b, r b = R.div (p i b) (S (List.ofFn fun b => R.mul (p i b) (width b)))) ∧
      (S (List.ofFn fun b => R.mul (p i b) (width b)) = 1 → r = p i) ∧
      (∑ b, p i b * width b = 1 → ∀ b, (1 - R.u) / (1 + R.u) ^ (m + 1) * p i b ≤ r b ∧ r b ≤ (1 + R.u) / (1 - R.u) ^ (m + 1) * p i b) := by
  have hu := R.u_nonneg
  have hu1 : 0 < 1 - R.u := by linarith [R.u_lt_one]
  have hterm : ∀ b, 0 ≤ R.mul (p i b) (width b) := fun b => R.nonneg (mul_nonneg (h0 b) (hw b).le)
  obtain ⟨b0, hb0⟩ := hpos
  have hsum : 0 < ∑ b, R.mul (p i b) (width b) := Finset.sum_pos' (fun b _ => hterm b) ⟨b0, Finset.mem_univ _, R.pos (mul_pos (lt_of_le_of_ne (h0 b0) (Ne.symm hb0)) (hw b0))⟩
  have hN := hS.near _ hterm
  have hNpos : 0 < S (List.ofFn fun b => R.mul (p i b) (width b)) := lt_of_lt_of_le (by positivity) hN.1
  refine ⟨fun b => R.div (p i b) (S (List.ofFn fun b => R.mul (p i b) (width b))), ?_, fun b => rfl, ?_, ?_⟩
  · unfold momentMorph
    rw [if_neg, if_neg]
    · congr 1
      have hf : morphed R edges p (Pi.single i 1) (fun j => pdfMean R S edges width (p j)) (fun j => Interpolation.okOr 0 (pdfStd R S edges width (p j))) = p i := by
        funext b
        obtain ⟨s, hsi⟩ := hs i
        have hm : R.Is (pdfMean R S edges width (p i)) := R.idem _
        exact morphed_node h hmid p i hp (fun j => pdfMean R S edges width (p j)) (fun j => Interpolation.okOr 0 (pdfStd R S edges width (p j))) hm (by rw [hsi]; exact std_pos h hsi) b
      rw [hf]
      funext b
      unfold renormalize
      rw [if_pos hNpos.ne']
    · rintro ⟨j, hj⟩
      obtain ⟨s, hsj⟩ := hs j
      rw [hsj] at hj
      cases hj
    · rintro ⟨j, hj⟩
      exact absurd hj (not_le.mpr (hz j))
  · intro h1
    funext b
    show R.rd _ = _
    rw [h1, div_one]
    exact hp b
  · intro h1 b
    have hb1 : (1 - R.u) * ∑ b, p i b * width b ≤ ∑ b, R.mul (p i b) (width b) := by
      rw [Finset.mul_sum]
      exact Finset.sum_le_sum fun b _ => (R.bounds (mul_nonneg (h0 b) (hw b).le)).1
    have hb2 : ∑ b, R.mul (p i b) (width b) ≤ (1 + R.u) * ∑ b, p i b * width b := by
      rw [Finset.mul_sum]
      exact Finset.sum_le_sum fun b _ => (R.bounds (mul_nonneg (h0 b) (hw b).le)).2
    rw [h1, mul_one] at hb1 hb2
    have n1 : (1 - R.u) ^ (m + 1) ≤ S (List.ofFn fun b => R.mul (p i b) (width b)) := by
      refine le_trans (le_trans (le_of_eq (pow_succ _ _)) (mul_le_mul_of_nonneg_left hb1 (by positivity))) hN.1
    have n2 : S (List.ofFn fun b => R.mul (p i b) (width b)) ≤ (1 + R.u) ^ (m + 1) := by
      refine hN.2.trans (le_trans (mul_le_mul_of_nonneg_left hb2 (by positivity)) (le_of_eq (pow_succ _ _).symm))
    obtain ⟨c1, c2⟩ := R.bounds (div_nonneg (h0 b) hNpos.le)
    constructor
    · refine le_trans (le_trans (le_of_eq ?_) (mul_le_mul_of_nonneg_left (div_le_div_of_nonneg_left (h0 b) hNpos n2) hu1.le)) c1
      ring
    · refine c2.trans (le_trans (mul_le_mul_of_nonneg_left (div_le_div_of_nonneg_left (h0 b) (by positivity) n1) (by linarith)) (le_of_eq ?_))
      ring

/-- **C163** (1-D) With the target at the lower grid point of a segment, the computed coefficients are those of a node. -/
theorem C163_node_1d {n m : ℕ} {S : List ℝ → ℝ} (hS : SumOf R m n S) {edges : Fin (n + 2) → ℝ} (h : StrictMono edges)
    (hmid : ∀ b : Fin (n + 1), edges b.castSucc ≤ binCenter R (edges b.castSucc) (edges b.succ) ∧ binCenter R (edges b.castSucc) (edges b.succ) < edges b.succ)
    (width : Fin (n + 1) → ℝ) (hw : ∀ b, 0 < width b) (p : Fin 2 → Fin (n + 1) → ℝ) (hp : ∀ b, R.Is (p 0 b)) (h0 : ∀ b, 0 ≤ p 0 b)
    (hz : ∀ j, 1 / 10 ^ 8 < |S (List.ofFn (p j))|) (hs : ∀ j, ∃ s, pdfStd R S edges width (p j) = .ok s) {g0 g1 : ℝ} (hg : g0 < g1) (hpos : ∃ b, p 0 b ≠ 0)
    (hint : S (List.ofFn fun b => R.mul (p 0 b) (width b)) = 1) : momentMorph R S edges width p (segmentCoefficients R g0 g1 g0) = .ok (p 0) := by
  have hc : segmentCoefficients R g0 g1 g0 = Pi.single 0 1 := by
    obtain ⟨c0, c1, _⟩ := C163_coefficients (R := R) hg le_rfl
    funext j
    match j with
    | 0 => rw [c0]; rfl
    | 1 => rw [c1]; rfl
  rw [hc]
  obtain ⟨r, hr, _, h1, _⟩ := C163_node hS h hmid width hw p 0 hp h0 hpos hz hs
  rw [hr, h1 hint]

/-- **C163** For templates and coefficients that are not negative, an estimate is not negative, and its integral is 1 up to roundings, or it is 0 everywhere. -/
theorem C163_normalised {k n m : ℕ} {S : List ℝ → ℝ} (hS : SumOf R m n S) {edges : Fin (n + 2) → ℝ} (h : StrictMono edges) (width : Fin (n + 1) → ℝ) (hw : ∀ b, 0 < width b)
    (p : Fin k → Fin (n + 1) → ℝ) (h0 : ∀ j b, 0 ≤ p j b) (coef : Fin k → ℝ) (hc : ∀ j, 0 ≤ coef j) (hc1 : ∃ j, 0 < coef j) (r : Fin (n + 1) → ℝ) (hr : momentMorph R S edges width p coef = .ok r) :
    (∀ b, 0 ≤ r b) ∧ ((∀ b, r b = 0) ∨
      (1 - R.u) / (1 + R.u) ^ (m + 1) ≤ ∑ b, r b * width b ∧ ∑ b, r b * width b ≤ (1 + R.u) / (1 - R.u) ^ (m + 1)) := by
  have hu := R.u_nonneg
  have hu1 : 0 < 1 - R.u := by linarith [R.u_lt_one]
  have key : ∀ f : Fin (n + 1) → ℝ, (∀ b, 0 ≤ f b) → (∀ b, 0 ≤ renormalize R S width f b) ∧ ((∀ b, renormalize R S width f b = 0) ∨
      (1 - R.u) / (1 + R.u) ^ (m + 1) ≤ ∑ b, renormalize R S width f b * width b ∧ ∑ b, renormalize R S width f b * width b ≤ (1 + R.u) / (1 - R.u) ^ (m + 1)) := by
    intro f hf
    have hterm : ∀ b, 0 ≤ R.mul (f b) (width b) := fun b => R.nonneg (mul_nonneg (hf b) (hw b).le)
    have hN := hS.near _ hterm
    have hN0 : 0 ≤ S (List.ofFn fun b => R.mul (f b) (width b)) := le_trans (mul_nonneg (by positivity) (Finset.sum_nonneg fun b _ => hterm b)) hN.1
    by_cases hne : S (List.ofFn fun b => R.mul (f b) (width b)) = 0
    · have : ∀ b, renormalize R S width f b = 0 := fun b => by
        unfold renormalize
        exact if_neg (by simpa using hne)
      exact ⟨fun b => (this b).ge, Or.inl this⟩
    · have hr : ∀ b, renormalize R S width f b = R.div (f b) (S (List.ofFn fun b => R.mul (f b) (width b))) := fun b => by
        unfold renormalize
        exact if_pos hne
      have hNpos := lt_of_le_of_ne hN0 (Ne.symm hne)
      simp only [hr]
      refine ⟨fun b => R.nonneg (div_nonneg (hf b) hN0), Or.inr ?_⟩
      have hb1 : (1 - R.u) * ∑ b, f b * width b ≤ ∑ b, R.mul (f b) (width b) := by
        rw [Finset.mul_sum]
        exact Finset.sum_le_sum fun b _ => (R.bounds (mul_nonneg (hf b) (hw b).le)).1
      have hb2 : ∑ b, R.mul (f b) (width b) ≤ (1 + R.u) * ∑ b, f b * width b := by
        rw [Finset.mul_sum]
        exact Finset.sum_le_sum fun b _ => (R.bounds (mul_nonneg (hf b) (hw b).le)).2
      have n1 : (1 - R.u) ^ (m + 1) * ∑ b, f b * width b ≤ S (List.ofFn fun b => R.mul (f b) (width b)) := by
        refine le_trans (le_trans (le_of_eq (by ring)) (mul_le_mul_of_nonneg_left hb1 (pow_nonneg hu1.le m))) hN.1
      have n2 : S (List.ofFn fun b => R.mul (f b) (width b)) ≤ (1 + R.u) ^ (m + 1) * ∑ b, f b * width b := by
        refine hN.2.trans (le_trans (mul_le_mul_of_nonneg_left hb2 (by positivity)) (le_of_eq (by ring)))
      generalize S (List.ofFn fun b => R.mul (f b) (width b)) = N at *
      have hI : 0 ≤ ∑ b, f b * width b := Finset.sum_nonneg fun b _ => mul_nonneg (hf b) (hw b).le
      have e : ∀ c : ℝ, ∑ b, c * (f b / N) * width b = c * (∑ b, f b * width b) / N := by
        intro c
        rw [Finset.mul_sum, Finset.sum_div]
        exact Finset.sum_congr rfl fun b _ => by ring
      constructor
      · have : ∑ b, (1 - R.u) * (f b / N) * width b ≤ ∑ b, R.div (f b) N * width b :=
          Finset.sum_le_sum fun b _ => mul_le_mul_of_nonneg_right (R.bounds (div_nonneg (hf b) hN0)).1 (hw b).le
        refine le_trans ?_ this
        rw [e, div_le_div_iff₀ (by positivity) hNpos]
        have := mul_le_mul_of_nonneg_left n2 hu1.le
        linarith
      · have : ∑ b, R.div (f b) N * width b ≤ ∑ b, (1 + R.u) * (f b / N) * width b :=
          Finset.sum_le_sum fun b _ => mul_le_mul_of_nonneg_right (R.bounds (div_nonneg (hf b) hN0)).2 (hw b).le
        refine this.trans ?_
        rw [e, div_le_div_iff₀ hNpos (by positivity)]
        have := mul_le_mul_of_nonneg_left n1 (show 0 ≤ 1 + R.u by linarith)
        linarith
  unfold momentMorph at hr
  split at hr
  · cases hr
    exact key _ fun _ => le_rfl
  · split at hr
    · cases hr
    · rename_i hstd
      cases hr
      refine key _ fun b => ?_
      have hsig : ∀ j, 0 < Interpolation.okOr 0 (pdfStd R S edges width (p j)) := by
        intro j
        cases hj : pdfStd R S edges width (p j) with
        | ok s => exact (std_pos h hj).2
        | error e =>
          exfalso
          apply hstd
          refine ⟨j, ?_⟩
          have : e = .valueError := by
            unfold pdfStd at hj
            dsimp only at hj
            split at hj
            · split at hj
              · cases hj
              · cases hj; rfl
            · cases hj
          rw [hj, this]
      have hsum : 0 ≤ seqSum R (List.ofFn fun j => R.mul (coef j) (Interpolation.okOr 0 (pdfStd R S edges width (p j)))) := by
        refine (seqSum_is R _ fun w hw => ?_).2
        obtain ⟨j, rfl⟩ := (List.mem_ofFn' _ _).mp hw
        exact R.nonneg (mul_nonneg (hc j) (hsig j).le)
      unfold morphed
      refine (seqSum_is R _ fun w hw => ?_).2
      obtain ⟨j, rfl⟩ := (List.mem_ofFn' _ _).mp hw
      refine R.nonneg (mul_nonneg (R.nonneg (mul_nonneg (hc j) ?_)) (R.nonneg (div_nonneg (hsig j).le hsum)))
      rw [Interpolation.lookup_eq h]
      unfold Interpolation.heightAt
      split
      · exact h0 _ _
      · exact le_rfl

/-- **C163** If one of the templates is empty (a sum of at most `10^-8`), the estimate is 0 everywhere. -/
theorem C163_empty {k n : ℕ} (S : List ℝ → ℝ) (edges : Fin (n + 2) → ℝ) (width : Fin (n + 1) → ℝ) (p : Fin k → Fin (n + 1) → ℝ) (coef : Fin k → ℝ) (i : Fin k) (hi : |S (List.ofFn (p i))| ≤ 1 / 10 ^ 8) :
    momentMorph R S edges width p coef = .ok fun _ => 0 := by
  unfold momentMorph
  rw [if_pos ⟨i, hi⟩]
  congr 1
  funext b
  unfold renormalize
  dsimp only
  split
  · unfold Rounding.div
    rw [zero_div, R.zero]
  · rfl

/-- **C163** A template with a single bin that is not 0 and whose probability is 1 as computed (and 0 elsewhere) has the center of the bin as mean, and the standard deviation of a uniform distribution in that bin, as intended. -/
theorem C163_single_bin {n m : ℕ} {S : List ℝ → ℝ} (hS : SumOf R m n S) (edges : Fin (n + 2) → ℝ) (width p : Fin (n + 1) → ℝ) (b : Fin (n + 1)) (hb : p b ≠ 0) (hp : ∀ c, c ≠ b → p c = 0)
    (h1 : R.mul (p b) (width b) = 1) :
    pdfMean R S edges width p = binCenter R (edges b.castSucc) (edges b.succ) ∧
    pdfStd R S edges width p = .ok (R.mul (R.rd (Real.sqrt (R.div 1 12))) (R.sub (edges b.succ) (edges b.castSucc))) := by
  have hprob : ∀ c, c ≠ b → probability R width p c = 0 := fun c hc => by
    unfold probability
    rw [hp c hc, zero_mul_rd]
  have hq : probability R width p b = 1 := h1
  have hS1 : S (List.ofFn (probability R width p)) = 1 := by
    rw [hS.single _ b (by rw [hq]; exact R.one) hprob, hq]
  have hav : ∀ x : Fin (n + 1) → ℝ, R.Is (x b) → average R S x (probability R width p) = x b := by
    intro x hx
    unfold average
    rw [hS1, hS.single (fun c => R.mul (x c) (probability R width p c)) b (R.idem _) (fun c hc => by rw [hprob c hc, mul_zero_rd]), hq, mul_one_is hx]
    unfold Rounding.div
    rw [div_one]
    exact hx
  have hmean : pdfMean R S edges width p = mid R edges b := hav _ (R.idem _)
  refine ⟨hmean, ?_⟩
  have hvar : pdfVar R S edges width p = 0 := by
    unfold pdfVar
    dsimp only
    rw [hav (fun c => R.mul (R.sub (mid R edges c) (pdfMean R S edges width p)) (R.sub (mid R edges c) (pdfMean R S edges width p))) (R.idem _), hmean]
    have : R.sub (mid R edges b) (mid R edges b) = 0 := by
      unfold Rounding.sub
      rw [sub_self, R.zero]
    rw [this, zero_mul_rd]
  unfold pdfStd
  dsimp only
  rw [hvar, Real.sqrt_zero, R.zero, if_pos rfl, Interpolation.nonzeroBins_single hb hp]

/-- the double precision number 0.2 -/
theorem fifth_eq : double.rd (1 / 5) = 3602879701896397 * (2 : ℝ) ^ (-54 : ℤ) := by
  have := alphaDefault_eq
  unfold alphaDefault at this
  rw [this]
  norm_num

/-- **C163** (deviation) In double precision this fails for other probabilities: with the only content 0.2 in the bin from 1 to 2, the mean is not the center 1.5 but the next number, and the standard deviation is `2^-52` instead of `1/√12`. -/
theorem C163_single_bin_deviation {m : ℕ} {S : List ℝ → ℝ} (hS : SumOf double m 1 S) :
    let edges : Fin 3 → ℝ := ![0, 1, 2]
    let p : Fin 2 → ℝ := ![0, double.rd (1 / 5)]
    pdfMean double S edges (fun _ => 1) p = 3 / 2 + 2 ^ (-52 : ℤ) ∧ pdfStd double S edges (fun _ => 1) p = .ok (2 ^ (-52 : ℤ)) := by
  intro edges p
  have hq : probability double (fun _ => 1) p 1 = 3602879701896397 * (2 : ℝ) ^ (-54 : ℤ) := by
    show double.mul (double.rd (1 / 5)) 1 = _
    rw [mul_one_is (double.idem _), fifth_eq]
  have hq0 : probability double (fun _ => 1) p 0 = 0 := zero_mul_rd _
  have h0 : ∀ c : Fin 2, c ≠ 1 → c = 0 := by decide
  have hqIs : double.Is (3602879701896397 * (2 : ℝ) ^ (-54 : ℤ)) := by rw [← fifth_eq]; exact double.idem _
  have hS1 : S (List.ofFn (probability double (fun _ => 1) p)) = 3602879701896397 * (2 : ℝ) ^ (-54 : ℤ) := by
    rw [hS.single (probability double (fun _ => 1) p) 1 (by rw [hq]; exact hqIs) (fun c hc => by rw [h0 c hc, hq0]), hq]
  have hav : ∀ x : Fin 2 → ℝ, average double S x (probability double (fun _ => 1) p) = double.div (double.mul (x 1) (3602879701896397 * (2 : ℝ) ^ (-54 : ℤ))) (3602879701896397 * (2 : ℝ) ^ (-54 : ℤ)) := by
    intro x
    unfold average
    rw [hS1, hS.single (fun c => double.mul (x c) (probability double (fun _ => 1) p c)) 1 (double.idem _) (fun c hc => by rw [h0 c hc, hq0, mul_zero_rd]), hq]
  have hmid : mid double edges 1 = 3 / 2 := by
    have e1 : double.add 1 2 = 3 := by
      have := double.nat 3 (by show 3 ≤ 2 ^ 53; norm_num)
      unfold Rounding.add
      rw [show (1 : ℝ) + 2 = ((3 : ℕ) : ℝ) by norm_num, this]
      norm_num
    show double.mul (1 / 2) (double.add 1 2) = _
    rw [e1]
    have := Binary.rd_eq 53 (x := 1 / 2 * 3) (m := 6755399441055744) (e := -52) (by norm_num) (by norm_num) (by norm_num) (by norm_num) (by norm_num)
    refine Eq.trans this ?_
    norm_num
  have hmean : pdfMean double S edges (fun _ => 1) p = 3 / 2 + 2 ^ (-52 : ℤ) := by
    unfold pdfMean
    rw [hav, hmid]
    have e1 : double.mul (3 / 2) (3602879701896397 * (2 : ℝ) ^ (-54 : ℤ)) = 5404319552844596 * (2 : ℝ) ^ (-54 : ℤ) := by
      have := Binary.rd_eq 53 (x := 3 / 2 * (3602879701896397 * (2 : ℝ) ^ (-54 : ℤ))) (m := 5404319552844596) (e := -54) (by norm_num) (by norm_num) (by norm_num) (by norm_num) (by norm_num)
      exact_mod_cast this
    rw [e1]
    have := Binary.rd_eq 53 (x := 5404319552844596 * (2 : ℝ) ^ (-54 : ℤ) / (3602879701896397 * (2 : ℝ) ^ (-54 : ℤ))) (m := 6755399441055745) (e := -52) (by norm_num) (by norm_num) (by norm_num) (by norm_num) (by norm_num)
    refine Eq.trans this ?_
    norm_num
  refine ⟨hmean, ?_⟩
  have hd : double.sub (mid double edges 1) (3 / 2 + 2 ^ (-52 : ℤ)) = -2 ^ (-52 : ℤ) := by
    rw [hmid]
    unfold Rounding.sub
    rw [show (3 / 2 : ℝ) - (3 / 2 + 2 ^ (-52 : ℤ)) = -2 ^ (-52 : ℤ) by ring, double.neg]
    have := Binary.rd_eq 53 (x := (2 : ℝ) ^ (-52 : ℤ)) (m := 4503599627370496) (e := -104) (by norm_num) (by norm_num) (by norm_num) (by norm_num) (by norm_num)
    rw [show double.rd ((2 : ℝ) ^ (-52 : ℤ)) = _ from this]
    norm_num
  have hsq : double.mul (-2 ^ (-52 : ℤ)) (-2 ^ (-52 : ℤ)) = 2 ^ (-104 : ℤ) := by
    have := Binary.rd_eq 53 (x := (-2 ^ (-52 : ℤ)) * (-2 ^ (-52 : ℤ))) (m := 4503599627370496) (e := -156) (by norm_num) (by norm_num) (by norm_num) (by norm_num) (by norm_num)
    refine Eq.trans this ?_
    norm_num
  have hvar : pdfVar double S edges (fun _ => 1) p = 2 ^ (-104 : ℤ) := by
    unfold pdfVar
    dsimp only
    rw [hav, hmean, hd, hsq]
    have e1 : double.mul ((2 : ℝ) ^ (-104 : ℤ)) (3602879701896397 * (2 : ℝ) ^ (-54 : ℤ)) = 7205759403792794 * (2 : ℝ) ^ (-159 : ℤ) := by
      have := Binary.rd_eq 53 (x := (2 : ℝ) ^ (-104 : ℤ) * (3602879701896397 * (2 : ℝ) ^ (-54 : ℤ))) (m := 7205759403792794) (e := -159) (by norm_num) (by norm_num) (by norm_num) (by norm_num) (by norm_num)
      exact_mod_cast this
    rw [e1]
    have := Binary.rd_eq 53 (x := 7205759403792794 * (2 : ℝ) ^ (-159 : ℤ) / (3602879701896397 * (2 : ℝ) ^ (-54 : ℤ))) (m := 4503599627370496) (e := -156) (by norm_num) (by norm_num) (by norm_num) (by norm_num) (by norm_num)
    refine Eq.trans this ?_
    norm_num
  have hroot : Real.sqrt ((2 : ℝ) ^ (-104 : ℤ)) = 2 ^ (-52 : ℤ) := by
    rw [show (2 : ℝ) ^ (-104 : ℤ) = (2 ^ (-52 : ℤ)) ^ 2 by norm_num]
    exact Real.sqrt_sq (by positivity)
  have hrd : double.rd ((2 : ℝ) ^ (-52 : ℤ)) = 2 ^ (-52 : ℤ) := by
    have := Binary.rd_eq 53 (x := (2 : ℝ) ^ (-52 : ℤ)) (m := 4503599627370496) (e := -104) (by norm_num) (by norm_num) (by norm_num) (by norm_num) (by norm_num)
    refine Eq.trans this ?_
    norm_num
  unfold pdfStd
  dsimp only
  rw [hvar, hroot, hrd, if_neg (by positivity)]

/-! ## Satisfiability -/

/-- bins from 0 to 1 and from 1 to 2 in double precision: the centers are inside the bins -/
example : ∀ b : Fin 2, (![0, 1, 2] : Fin 3 → ℝ) b.castSucc ≤ binCenter double ((![0, 1, 2] : Fin 3 → ℝ) b.castSucc) ((![0, 1, 2] : Fin 3 → ℝ) b.succ) ∧
    binCenter double ((![0, 1, 2] : Fin 3 → ℝ) b.castSucc) ((![0, 1, 2] : Fin 3 → ℝ) b.succ) < (![0, 1, 2] : Fin 3 → ℝ) b.succ := by
  have e0 : binCenter double 0 1 = 1 / 2 := by
    unfold binCenter Rounding.mul Rounding.add
    rw [zero_add, double.one, mul_one]
    have := Binary.rd_eq 53 (x := 1 / 2) (m := 4503599627370496) (e := -53) (by norm_num) (by norm_num) (by norm_num) (by norm_num) (by norm_num)
    refine Eq.trans this ?_
    norm_num
  have e1 : binCenter double 1 2 = 3 / 2 := by
    have h3 := double.nat 3 (by show 3 ≤ 2 ^ 53; norm_num)
    unfold binCenter Rounding.mul Rounding.add
    rw [show (1 : ℝ) + 2 = ((3 : ℕ) : ℝ) by norm_num, h3]
    have := Binary.rd_eq 53 (x := 1 / 2 * ((3 : ℕ) : ℝ)) (m := 6755399441055744) (e := -52) (by norm_num) (by norm_num) (by norm_num) (by norm_num) (by norm_num)
    refine Eq.trans this ?_
    norm_num
  intro b
  match b with
  | 0 => show (0 : ℝ) ≤ binCenter double 0 1 ∧ binCenter double 0 1 < 1; rw [e0]; norm_num
  | 1 => show (1 : ℝ) ≤ binCenter double 1 2 ∧ binCenter double 1 2 < 2; rw [e1]; norm_num

/-- a template with all its content in the second of these bins: sum 1, integral 1 as computed, and a standard deviation -/
example {m : ℕ} {S : List ℝ → ℝ} (hS : SumOf double m 1 S) :
    (1 : ℝ) / 10 ^ 8 < |S (List.ofFn (![0, 1] : Fin 2 → ℝ))| ∧ S (List.ofFn fun b => double.mul ((![0, 1] : Fin 2 → ℝ) b) 1) = 1 ∧
    ∃ s, pdfStd double S ![0, 1, 2] (fun _ => 1) (![0, 1] : Fin 2 → ℝ) = .ok s := by
  have h0 : ∀ c : Fin 2, c ≠ 1 → c = 0 := by decide
  have h1 : double.mul 1 1 = 1 := one_mul_is double.one
  refine ⟨?_, ?_, _, (C163_single_bin hS ![0, 1, 2] (fun _ => 1) ![0, 1] 1 (by norm_num) (fun c hc => by rw [h0 c hc]; rfl) h1).2⟩
  · rw [hS.single (![0, 1] : Fin 2 → ℝ) 1 double.one (fun c hc => by rw [h0 c hc]; rfl)]
    norm_num
  · rw [hS.single (fun b => double.mul ((![0, 1] : Fin 2 → ℝ) b) 1) 1 (double.idem _) (fun c hc => by rw [h0 c hc]; exact zero_mul_rd _)]
    exact h1

end Pyirf.Rounded
