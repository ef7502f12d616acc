import Verif.Rounded.HistProps
import Verif.Np.Percentile

/-!
# C145: percentiles in rounded arithmetic
-/
set_option linter.unusedSectionVars false
set_option linter.unusedSimpArgs false

namespace Pyirf.Rounded
open Pyirf Pyirf.Np

variable (R : Rounding)

/-- numpy's interpolation stays between the neighbours -/
theorem lerp_between (hu : R.u ≤ 1 / 4) {a b t : ℝ} (ha : R.Is a) (hb : R.Is b) (hab : a ≤ b) (h0 : 0 ≤ t) (h1 : t ≤ 1) : a ≤ lerp R a b t ∧ lerp R a b t ≤ b := by
  have hu0 := R.u_nonneg
  have hd := R.bounds (show 0 ≤ b - a by linarith)
  have hd0 : 0 ≤ R.sub b a := R.nonneg (by linarith)
  have hd1 : R.sub b a ≤ 5 / 4 * (b - a) := hd.2.trans (mul_le_mul_of_nonneg_right (by linarith) (by linarith))
  have key : ∀ s : ℝ, 0 ≤ s → s ≤ 5 / 8 → 0 ≤ R.mul (R.sub b a) s ∧ R.mul (R.sub b a) s ≤ b - a := by
    intro s hs0 hs1
    have hp : 0 ≤ R.sub b a * s := mul_nonneg hd0 hs0
    refine ⟨R.nonneg hp, ?_⟩
    have h2 := (R.bounds hp).2
    have h3 : R.sub b a * s ≤ 5 / 4 * (b - a) * (5 / 8) := mul_le_mul hd1 hs1 hs0 (by linarith)
    have h4 : (1 + R.u) * (R.sub b a * s) ≤ 5 / 4 * (5 / 4 * (b - a) * (5 / 8)) := mul_le_mul (by linarith) h3 hp (by norm_num)
    unfold Rounding.mul
    linarith
  unfold lerp
  simp only
  split
  · rename_i ht
    have hs := R.bounds (show 0 ≤ 1 - t by linarith)
    have hs0 : 0 ≤ R.sub 1 t := R.nonneg (by linarith)
    have hs1 : R.sub 1 t ≤ 5 / 8 := by
      refine hs.2.trans ?_
      have := mul_le_mul (show 1 + R.u ≤ 5 / 4 by linarith) (show 1 - t ≤ 1 / 2 by linarith) (by linarith) (by norm_num)
      linarith
    obtain ⟨k0, k1⟩ := key _ hs0 hs1
    exact ⟨R.ge_of_ge ha (by linarith), R.le_of_le hb (by linarith)⟩
  · rename_i ht
    obtain ⟨k0, k1⟩ := key t h0 (by linarith)
    exact ⟨R.ge_of_ge ha (by linarith), R.le_of_le hb (by linarith)⟩

theorem lerp_self {a : ℝ} (ha : R.Is a) (t : ℝ) : lerp R a a t = a := by
  have z : ∀ s, R.mul (R.sub a a) s = 0 := fun s => by unfold Rounding.mul Rounding.sub; rw [sub_self, R.zero, zero_mul, R.zero]
  unfold lerp
  simp only [z]
  unfold Rounding.sub Rounding.add
  rw [sub_zero, add_zero, ha, ite_self]

theorem lerp_zero {a b : ℝ} (ha : R.Is a) : lerp R a b 0 = a := by
  unfold lerp Rounding.mul Rounding.add
  simp only
  rw [if_neg (by norm_num), mul_zero, R.zero, add_zero, ha]

/-- **C145** The percentile of a sorted array of floating point numbers (less than `limit` values, `u` at most 1/4), all operations rounded: it lies between two neighbouring values, whose index is that of the exact percentile up to two
roundings; at least `k + 1` values are at most the percentile and at least `n - 1 - k` values are at least the percentile, `k` being the rounded down index. Percentile 0 is the smallest and 100 the largest value, exactly, and the percentile
of equal values is that value. -/
theorem C145_percentile (hu : R.u ≤ 1 / 4) (s : List ℝ) (hne : s ≠ []) (hlim : s.length ≤ R.limit) (hs : s.Pairwise (· ≤ ·)) (hf : ∀ x ∈ s, R.Is x) (p : ℝ) (h0 : 0 ≤ p) (h1 : p ≤ 100) :
    ∃ v : ℝ, Near R 2 v (((s.length : ℝ) - 1) * (p / 100)) ∧ 0 ≤ v ∧ v ≤ (s.length : ℝ) - 1 ∧
    (∃ (k : ℕ) (hk : k < s.length), (k : ℝ) ≤ v ∧ v < k + 1 ∧ s[k] ≤ percentile R s p ∧ (∀ hk' : k + 1 < s.length, percentile R s p ≤ s[k + 1]) ∧
      k + 1 ≤ s.countP (fun x => decide (x ≤ percentile R s p)) ∧ s.length - 1 - k ≤ s.countP (fun x => decide (percentile R s p ≤ x))) ∧
    s.head hne ≤ percentile R s p ∧ percentile R s p ≤ s.getLast hne ∧
    percentile R s 0 = s.head hne ∧ percentile R s 100 = s.getLast hne ∧ (∀ c, (∀ x ∈ s, x = c) → percentile R s p = c) := by
  have hpos : 0 < s.length := List.length_pos_iff.mpr hne
  have hn1 : (1 : ℝ) ≤ s.length := by exact_mod_cast hpos
  have hnn : R.rd ((s.length : ℝ) - 1) = (s.length : ℝ) - 1 := by
    have := R.nat (s.length - 1) (by omega)
    rwa [Nat.cast_sub hpos, Nat.cast_one] at this
  have hu0 := R.u_nonneg
  have hu1 := R.u_lt_one
  have hget : ∀ i (hi : i < s.length), s.getD i 0 = s[i] := fun i hi => by rw [List.getD_eq_getElem?_getD, List.getElem?_eq_getElem hi]; rfl
  have hmono : ∀ i j (hj : j < s.length) (hij : i ≤ j), s[i] ≤ s[j] := by
    intro i j hj hij
    rcases Nat.eq_or_lt_of_le hij with rfl | h
    · exact le_rfl
    · exact List.pairwise_iff_getElem.mp hs i j (by omega) hj h
  have hhead : s.head hne = s[0] := List.head_eq_getElem hne
  have hlast : s.getLast hne = s[s.length - 1] := List.getLast_eq_getElem hne
  -- index
  have hidx : ∀ p : ℝ, 0 ≤ p → p ≤ 100 → 0 ≤ R.mul ((s.length : ℝ) - 1) (R.div p 100) ∧ R.mul ((s.length : ℝ) - 1) (R.div p 100) ≤ (s.length : ℝ) - 1 := by
    intro p h0 h1
    have q0 : 0 ≤ R.div p 100 := R.nonneg (by positivity)
    have q1 : R.div p 100 ≤ 1 := R.le_of_le R.one (by linarith)
    refine ⟨R.nonneg (mul_nonneg (by linarith) q0), R.le_of_le hnn ?_⟩
    nlinarith
  have hbetween : ∀ p : ℝ, 0 ≤ p → p ≤ 100 → ∀ v, v = R.mul ((s.length : ℝ) - 1) (R.div p 100) → ∃ (k : ℕ) (hk : k < s.length), k = ⌊v⌋.toNat ∧ (k : ℝ) ≤ v ∧ v < k + 1 ∧
      s[k] ≤ percentile R s p ∧ percentile R s p ≤ s[min (k + 1) (s.length - 1)] := by
    rintro p h0 h1 v rfl
    obtain ⟨v0, v1⟩ := hidx p h0 h1
    set v := R.mul ((s.length : ℝ) - 1) (R.div p 100) with hv
    have hfl0 : 0 ≤ ⌊v⌋ := Int.floor_nonneg.mpr v0
    have hcast : ((⌊v⌋.toNat : ℕ) : ℝ) = (⌊v⌋ : ℝ) := by
      have : ((⌊v⌋.toNat : ℕ) : ℤ) = ⌊v⌋ := Int.toNat_of_nonneg hfl0
      exact_mod_cast this
    have hle : ((⌊v⌋.toNat : ℕ) : ℝ) ≤ v := by rw [hcast]; exact Int.floor_le v
    have hlt : v < ((⌊v⌋.toNat : ℕ) : ℝ) + 1 := by rw [hcast]; exact Int.lt_floor_add_one v
    have hk : ⌊v⌋.toNat < s.length := by
      have : ((⌊v⌋.toNat : ℕ) : ℝ) < s.length := by linarith
      exact_mod_cast this
    refine ⟨_, hk, rfl, hle, hlt, ?_⟩
    have e : percentile R s p = lerp R s[⌊v⌋.toNat] s[min (⌊v⌋.toNat + 1) (s.length - 1)] (R.sub v (⌊v⌋.toNat : ℕ)) := by
      unfold percentile
      simp only [← hv]
      rw [hget _ (by omega), hget _ (by omega)]
      congr 1
      congr 1
      omega
    rw [e]
    exact lerp_between R hu (hf _ (List.getElem_mem _)) (hf _ (List.getElem_mem _)) (hmono _ _ _ (by omega)) (R.nonneg (by linarith)) (R.le_of_le R.one (by linarith))
  obtain ⟨v0, v1⟩ := hidx p h0 h1
  refine ⟨R.mul ((s.length : ℝ) - 1) (R.div p 100), ?_, v0, v1, ?_, ?_, ?_, ?_, ?_, ?_⟩
  · have hq : 0 ≤ p / 100 := by positivity
    obtain ⟨a1, a2⟩ := R.bounds hq
    have hq' : 0 ≤ R.div p 100 := R.nonneg hq
    have hm0 : 0 ≤ (s.length : ℝ) - 1 := by linarith
    obtain ⟨b1, b2⟩ := R.bounds (mul_nonneg hm0 hq')
    constructor
    · refine le_trans ?_ b1
      rw [pow_two, mul_assoc]
      refine mul_le_mul_of_nonneg_left ?_ (by linarith)
      rw [mul_left_comm]
      exact mul_le_mul_of_nonneg_left a1 hm0
    · refine b2.trans ?_
      rw [pow_two, mul_assoc]
      refine mul_le_mul_of_nonneg_left ?_ (by linarith)
      rw [mul_left_comm]
      exact mul_le_mul_of_nonneg_left a2 hm0
  · obtain ⟨k, hk, _, hle, hlt, hlo, hhi⟩ := hbetween p h0 h1 _ rfl
    refine ⟨k, hk, hle, hlt, hlo, ?_, ?_, ?_⟩
    · intro hk'
      have : min (k + 1) (s.length - 1) = k + 1 := by omega
      simp only [this] at hhi
      exact hhi
    · have hsub : (s.take (k + 1)).countP (fun x => decide (x ≤ percentile R s p)) = k + 1 := by
        rw [List.countP_eq_length.mpr]
        · rw [List.length_take]; omega
        · intro x hx
          obtain ⟨i, hi, rfl⟩ := List.getElem_of_mem hx
          rw [List.length_take] at hi
          rw [List.getElem_take]
          exact decide_eq_true ((hmono i k hk (by omega)).trans hlo)
      rw [← hsub]
      exact (List.take_sublist _ _).countP_le
    · have hsub : (s.drop (k + 1)).countP (fun x => decide (percentile R s p ≤ x)) = s.length - 1 - k := by
        rw [List.countP_eq_length.mpr]
        · rw [List.length_drop]; omega
        · intro x hx
          obtain ⟨i, hi, rfl⟩ := List.getElem_of_mem hx
          rw [List.length_drop] at hi
          rw [List.getElem_drop]
          refine decide_eq_true (hhi.trans (hmono _ _ (by omega) (by omega)))
      rw [← hsub]
      exact (List.drop_sublist _ _).countP_le
  · obtain ⟨k, hk, _, _, _, hlo, _⟩ := hbetween p h0 h1 _ rfl
    rw [hhead]
    exact (hmono 0 k hk (by omega)).trans hlo
  · obtain ⟨k, hk, _, _, _, _, hhi⟩ := hbetween p h0 h1 _ rfl
    rw [hlast]
    exact hhi.trans (hmono _ _ (by omega) (by omega))
  · have hv : R.mul ((s.length : ℝ) - 1) (R.div 0 100) = 0 := by unfold Rounding.mul Rounding.div; rw [zero_div, R.zero, mul_zero, R.zero]
    unfold percentile
    simp only [hv, Int.floor_zero, Int.toNat_zero, Nat.cast_zero]
    have hz : R.sub 0 0 = 0 := by unfold Rounding.sub; rw [sub_zero, R.zero]
    rw [hz, hhead, hget _ (by omega), lerp_zero R (hf _ (List.getElem_mem _))]
    congr 1
  · have hv : R.mul ((s.length : ℝ) - 1) (R.div 100 100) = (s.length : ℝ) - 1 := by
      unfold Rounding.mul Rounding.div
      rw [div_self (by norm_num), R.one, mul_one, hnn]
    obtain ⟨k, hk, hk0, hle, hlt, hlo, hhi⟩ := hbetween 100 (by norm_num) le_rfl _ hv.symm
    have hkl : k = s.length - 1 := by
      have h1 : (s.length : ℝ) < (k : ℝ) + 1 + 1 := by linarith
      have h2 : s.length < k + 1 + 1 := by exact_mod_cast h1
      omega
    subst hkl
    rw [hlast]
    refine le_antisymm (hhi.trans (hmono _ _ (by omega) (by omega))) hlo
  · intro c hc
    obtain ⟨k, hk, _, _, _, hlo, hhi⟩ := hbetween p h0 h1 _ rfl
    rw [hc _ (List.getElem_mem _)] at hlo hhi
    exact le_antisymm hhi hlo

/-- **C145** Without rounding this is the percentile of the other models. -/
theorem C145_exact (n : ℕ) (hn : 1 ≤ n) (s : List ℝ) (hne : s ≠ []) (p : ℝ) (h0 : 0 ≤ p) (h1 : p ≤ 100) : percentile (Rounding.exact n hn) s p = quantileSorted s (p / 100) := by
  have hidx := (quantile_index hne (q := p / 100) (by positivity) (by linarith)).2.2
  have hl : ∀ a b t : ℝ, lerp (Rounding.exact n hn) a b t = a + (b - a) * t := by
    intro a b t
    show (if 1 / 2 ≤ t then b - (b - a) * (1 - t) else a + (b - a) * t) = _
    split
    · ring
    · rfl
  unfold percentile quantileSorted
  simp only [hl]
  show s.getD (min ⌊((s.length : ℝ) - 1) * (p / 100)⌋.toNat (s.length - 1)) 0 + (s.getD (min (⌊((s.length : ℝ) - 1) * (p / 100)⌋.toNat + 1) (s.length - 1)) 0 - s.getD (min ⌊((s.length : ℝ) - 1) * (p / 100)⌋.toNat (s.length - 1)) 0) * (((s.length : ℝ) - 1) * (p / 100) - (⌊((s.length : ℝ) - 1) * (p / 100)⌋.toNat : ℕ)) = _
  rw [Nat.min_eq_left hidx]

/-! ## The hypotheses can be met -/

/-- natural numbers are floating point numbers, `u = 2^-53` -/
example : (Rounding.binary 53 (by norm_num)).u ≤ 1 / 4 ∧ ([1, 2, 2, 5] : List ℝ).length ≤ (Rounding.binary 53 (by norm_num)).limit ∧ ([1, 2, 2, 5] : List ℝ).Pairwise (· ≤ ·) ∧
    ∀ x ∈ ([1, 2, 2, 5] : List ℝ), (Rounding.binary 53 (by norm_num)).Is x := by
  have hl : (Rounding.binary 53 (by norm_num)).limit = 2 ^ 53 := rfl
  refine ⟨?_, by rw [hl]; decide, by norm_num, ?_⟩
  · have : (Rounding.binary 53 (by norm_num)).u = (1 / 2 : ℝ) ^ 53 := rfl
    rw [this]
    norm_num
  · intro x hx
    have key : ∀ n : ℕ, n ≤ 2 ^ 53 → (Rounding.binary 53 (by norm_num)).Is (n : ℝ) := fun n hn => (Rounding.binary 53 (by norm_num)).nat n (by rw [hl]; exact hn)
    simp only [List.mem_cons, List.not_mem_nil, or_false] at hx
    rcases hx with rfl | rfl | rfl | rfl
    · exact_mod_cast key 1 (by norm_num)
    · exact_mod_cast key 2 (by norm_num)
    · exact_mod_cast key 2 (by norm_num)
    · exact_mod_cast key 5 (by norm_num)

end Pyirf.Rounded
