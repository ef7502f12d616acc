import Verif.Rounded.BgModel
import Verif.Rounded.CoefProps
import Verif.Rounded.DensityProps
import Verif.Np.Interp
import Verif.Sensitivity.BgProps

/-!
# Interpolation between nodes and the background estimate in rounded arithmetic (C166)
-/
set_option linter.unusedSectionVars false
set_option linter.unusedSimpArgs false

namespace Pyirf.Rounded
open Pyirf Pyirf.Np

variable {R : Rounding}

/-! ## Interpolation -/

theorem sorted_tail {a : ℝ × ℝ} {l : List (ℝ × ℝ)} (h : SortedNodes (a :: l)) : SortedNodes l := by
  unfold SortedNodes at *
  rw [List.map_cons, List.pairwise_cons] at h
  exact h.2

theorem sorted_lt {a : ℝ × ℝ} {l : List (ℝ × ℝ)} (h : SortedNodes (a :: l)) {b : ℝ × ℝ} (hb : b ∈ l) : a.1 < b.1 := by
  unfold SortedNodes at *
  rw [List.map_cons, List.pairwise_cons] at h
  exact h.1 _ (List.mem_map_of_mem hb)

theorem sorted_head_le {a : ℝ × ℝ} {l : List (ℝ × ℝ)} (h : SortedNodes (a :: l)) {b : ℝ × ℝ} (hb : b ∈ a :: l) : a.1 ≤ b.1 := by
  rcases List.mem_cons.mp hb with rfl | hb
  · exact le_rfl
  · exact (sorted_lt h hb).le

theorem infix_mem {a b : ℝ × ℝ} {l : List (ℝ × ℝ)} (h : [a, b] <:+: l) : a ∈ l ∧ b ∈ l := ⟨h.subset (by simp), h.subset (by simp)⟩

/-- between neighbouring nodes -/
theorem go_segment (nodes : List (ℝ × ℝ)) (hs : SortedNodes nodes) {a b : ℝ × ℝ} (hab : [a, b] <:+: nodes) {x : ℝ} (h1 : a.1 ≤ x) (h2 : x < b.1) :
    interpGo R nodes x = if x = a.1 then a.2 else lineAt R a b x := by
  induction nodes with
  | nil => simp at hab
  | cons n l ih =>
    cases l with
    | nil =>
      have := hab.length_le
      simp at this
    | cons n1 l =>
      rcases List.infix_cons_iff.mp hab with h | h
      · obtain ⟨t, ht⟩ := h
        simp only [List.cons_append, List.nil_append, List.cons.injEq] at ht
        obtain ⟨rfl, rfl, -⟩ := ht
        show (if x < b.1 then _ else _) = _
        rw [if_pos h2]
      · have hle := sorted_head_le (sorted_tail hs) (infix_mem h).1
        show (if x < n1.1 then _ else _) = _
        rw [if_neg (not_lt.mpr (hle.trans h1))]
        exact ih (sorted_tail hs) h

theorem go_cases (nodes : List (ℝ × ℝ)) (hn : nodes ≠ []) (hs : SortedNodes nodes) {x : ℝ} (hx : ∀ a ∈ nodes.head?, a.1 ≤ x) :
    (∃ a b, [a, b] <:+: nodes ∧ a.1 ≤ x ∧ x < b.1) ∨ (∃ a, nodes.getLast? = some a ∧ a.1 ≤ x ∧ ∀ R, interpGo R nodes x = a.2) := by
  induction nodes with
  | nil => exact absurd rfl hn
  | cons n l ih =>
    cases l with
    | nil => exact Or.inr ⟨n, rfl, hx n rfl, fun _ => rfl⟩
    | cons n1 l =>
      by_cases h : x < n1.1
      · exact Or.inl ⟨n, n1, ⟨[], l, rfl⟩, hx n rfl, h⟩
      · have hle := not_lt.mp h
        rcases ih (by simp) (sorted_tail hs) (by intro a ha; cases ha; exact hle) with ⟨a, b, hab, h1, h2⟩ | ⟨a, ha, h1, h2⟩
        · exact Or.inl ⟨a, b, hab.trans (List.suffix_cons _ _).isInfix, h1, h2⟩
        · refine Or.inr ⟨a, by rw [List.getLast?_cons_cons]; exact ha, h1, fun R => ?_⟩
          show (if x < n1.1 then _ else _) = _
          rw [if_neg h]
          exact h2 R

theorem interp_segment (nodes : List (ℝ × ℝ)) (hs : SortedNodes nodes) {a b : ℝ × ℝ} (hab : [a, b] <:+: nodes) {x : ℝ} (h1 : a.1 ≤ x) (h2 : x < b.1) :
    interp R nodes x = if x = a.1 then a.2 else lineAt R a b x := by
  cases nodes with
  | nil => simp at hab
  | cons n l =>
    have hle := sorted_head_le hs (infix_mem hab).1
    show (if x < n.1 then _ else _) = _
    rw [if_neg (not_lt.mpr (hle.trans h1))]
    exact go_segment _ hs hab h1 h2

theorem interp_cases (nodes : List (ℝ × ℝ)) (hn : nodes ≠ []) (hs : SortedNodes nodes) (x : ℝ) :
    (∃ a, nodes.head? = some a ∧ x < a.1 ∧ ∀ R, interp R nodes x = a.2) ∨ (∃ a b, [a, b] <:+: nodes ∧ a.1 ≤ x ∧ x < b.1) ∨
      (∃ a, nodes.getLast? = some a ∧ a.1 ≤ x ∧ ∀ R, interp R nodes x = a.2) := by
  cases nodes with
  | nil => exact absurd rfl hn
  | cons n l =>
    by_cases h : x < n.1
    · exact Or.inl ⟨n, rfl, h, fun R => if_pos h⟩
    · rcases go_cases (n :: l) hn hs (x := x) (by intro a ha; cases ha; exact not_lt.mp h) with h' | ⟨a, ha, h1, h2⟩
      · exact Or.inr (Or.inl h')
      · exact Or.inr (Or.inr ⟨a, ha, h1, fun R => (if_neg h).trans (h2 R)⟩)

/-- without rounding the line -/
theorem lineAt_exact (k : ℕ) (hk : 1 ≤ k) (a b : ℝ × ℝ) (x : ℝ) : lineAt (Rounding.exact k hk) a b x = (b.2 - a.2) / (b.1 - a.1) * (x - a.1) + a.2 := rfl

theorem go_agrees (k : ℕ) (hk : 1 ≤ k) (nodes : List (ℝ × ℝ)) (hn : nodes ≠ []) (hs : SortedNodes nodes) (x : ℝ) :
    Np.interpGo (finNodes nodes) (.fin x) = .fin (interpGo (Rounding.exact k hk) nodes x) := by
  induction nodes with
  | nil => exact absurd rfl hn
  | cons n l ih =>
    cases l with
    | nil => rfl
    | cons n1 l =>
      have h01 : n.1 < n1.1 := sorted_lt hs (by simp)
      have := ih (by simp) (sorted_tail hs)
      simp only [finNodes, List.map_cons, Np.interpGo, FV.lt_fin, decide_eq_true_eq, interpGo] at this ⊢
      split
      · by_cases hx : x = n.1
        · rw [if_pos hx, if_pos (show FV.beq (FV.fin x) (FV.fin n.1) = true by simp [FV.beq, hx])]
        · rw [if_neg hx, if_neg (show ¬ FV.beq (FV.fin x) (FV.fin n.1) = true from fun h => by
            simp only [FV.beq, FV.le_fin, Bool.and_eq_true, decide_eq_true_eq] at h
            exact hx (le_antisymm h.1 h.2)), interpSegment_fin _ _ _ (sub_ne_zero.mpr h01.ne')]
          rfl
      · exact this

/-- **C166** Without rounding this is the interpolation of the other theorems. -/
theorem C166_interp_agrees (k : ℕ) (hk : 1 ≤ k) (nodes : List (ℝ × ℝ)) (hn : nodes ≠ []) (hs : SortedNodes nodes) (x : ℝ) :
    Np.interp (finNodes nodes) (.fin x) = .fin (interp (Rounding.exact k hk) nodes x) := by
  cases nodes with
  | nil => exact absurd rfl hn
  | cons n l =>
    have := go_agrees k hk (n :: l) hn hs x
    unfold Np.interp interp
    simp only [finNodes, List.map_cons, FV.isNan_fin, Bool.false_eq_true, if_false, FV.lt_fin, decide_eq_true_eq] at this ⊢
    split
    · rfl
    · exact this

/-- **C166** Interpolation in floating point: at a node its value exactly; the first and the last value outside; if all values are the same floating point number, this number everywhere, also between the nodes. -/
theorem C166_interp_exact (nodes : List (ℝ × ℝ)) (hn : nodes ≠ []) (hs : SortedNodes nodes) :
    (∀ a ∈ nodes, interp R nodes a.1 = a.2) ∧
    (∀ a x, nodes.head? = some a → x ≤ a.1 → interp R nodes x = a.2) ∧ (∀ a x, nodes.getLast? = some a → a.1 ≤ x → interp R nodes x = a.2) ∧
    (∀ c x, R.Is c → (∀ a ∈ nodes, a.2 = c) → interp R nodes x = c) := by
  have node : ∀ a ∈ nodes, interp R nodes a.1 = a.2 := by
    intro a ha
    have key : ∀ (l : List (ℝ × ℝ)), SortedNodes l → a ∈ l → interpGo R l a.1 = a.2 := by
      intro l
      induction l with
      | nil => intro _ h; simp at h
      | cons n l ih =>
        intro h hm
        cases l with
        | nil => rw [List.mem_singleton.mp hm]; rfl
        | cons n1 l =>
          show (if a.1 < n1.1 then _ else _) = _
          rcases List.mem_cons.mp hm with rfl | hm
          · rw [if_pos (sorted_lt h (by simp)), if_pos rfl]
          · rw [if_neg (not_lt.mpr (sorted_head_le (sorted_tail h) hm))]
            exact ih (sorted_tail h) hm
    cases nodes with
    | nil => exact absurd rfl hn
    | cons n l =>
      show (if a.1 < n.1 then _ else _) = _
      rw [if_neg (not_lt.mpr (sorted_head_le hs ha))]
      exact key _ hs ha
  have hlast : ∀ a x, nodes.getLast? = some a → a.1 ≤ x → interp R nodes x = a.2 := by
    intro a x ha hx
    have hm : a ∈ nodes := List.mem_of_getLast? ha
    rcases interp_cases nodes hn hs x with ⟨b, hb, h1, -⟩ | ⟨b, c, hbc, -, h2⟩ | ⟨b, hb, -, h2⟩
    · cases nodes with
      | nil => exact absurd rfl hn
      | cons n l =>
        cases hb
        have := sorted_head_le hs hm
        linarith
    · exfalso
      obtain ⟨s, t, rfl⟩ := hbc
      have hc : c.1 ≤ a.1 := by
        unfold SortedNodes at hs
        have hmem : c ∈ s ++ [b, c] ++ t := by simp
        obtain ⟨l', hl'⟩ : ∃ l', s ++ [b, c] ++ t = l' ++ [a] := ⟨_, (List.dropLast_append_getLast? a ha).symm⟩
        rw [hl'] at hs hmem
        rw [List.map_append, List.pairwise_append] at hs
        rcases List.mem_append.mp hmem with h | h
        · exact (hs.2.2 _ (List.mem_map_of_mem h) _ (by simp)).le
        · rw [List.mem_singleton.mp h]
      linarith
    · rw [ha] at hb
      cases hb
      exact h2 R
  refine ⟨node, ?_, hlast, ?_⟩
  · intro a x ha hx
    cases nodes with
    | nil => exact absurd rfl hn
    | cons n l =>
      cases ha
      rcases hx.lt_or_eq with h | h
      · exact if_pos h
      · rw [h]; exact node _ (by simp)
  · intro c x hc hall
    rcases interp_cases nodes hn hs x with ⟨b, hb, -, h2⟩ | ⟨a, b, hab, h1, h2⟩ | ⟨b, hb, -, h2⟩
    · rw [h2, hall _ (List.mem_of_head? hb)]
    · obtain ⟨ma, mb⟩ := infix_mem hab
      rw [interp_segment nodes hs hab h1 h2]
      split
      · exact hall _ ma
      · unfold lineAt
        rw [hall _ ma, hall _ mb]
        unfold Rounding.sub Rounding.div Rounding.add Rounding.mul
        rw [sub_self, R.zero, zero_div, R.zero, zero_mul, R.zero, zero_add]
        exact hc
    · rw [h2, hall _ (List.mem_of_getLast? hb)]

/-- **C166** Between neighbouring nodes the computed interpolation is monotone, increasing or decreasing like the values of the nodes, and does not pass the value of the lower node. -/
theorem C166_interp_monotone (nodes : List (ℝ × ℝ)) (hs : SortedNodes nodes) {a b : ℝ × ℝ} (hab : [a, b] <:+: nodes) (ha : R.Is a.2) {x y : ℝ} (h1 : a.1 ≤ x) (hxy : x ≤ y) (h2 : y < b.1) :
    (a.2 ≤ b.2 → a.2 ≤ interp R nodes x ∧ interp R nodes x ≤ interp R nodes y) ∧ (b.2 ≤ a.2 → interp R nodes x ≤ a.2 ∧ interp R nodes y ≤ interp R nodes x) := by
  have val : ∀ z, a.1 ≤ z → z < b.1 → interp R nodes z = lineAt R a b z := by
    intro z hz1 hz2
    rw [interp_segment nodes hs hab hz1 hz2]
    split
    · rename_i h
      unfold lineAt
      rw [h]
      unfold Rounding.sub Rounding.add Rounding.mul
      rw [sub_self, R.zero, mul_zero, R.zero, zero_add]
      exact ha.symm
    · rfl
  rw [val x h1 (lt_of_le_of_lt hxy h2), val y (h1.trans hxy) h2]
  have hd : 0 < R.sub b.1 a.1 := R.pos (by linarith)
  have hx : 0 ≤ R.sub x a.1 := R.nonneg (by linarith)
  have hxy' : R.sub x a.1 ≤ R.sub y a.1 := R.mono (by linarith)
  constructor
  · intro h
    have hs : 0 ≤ R.div (R.sub b.2 a.2) (R.sub b.1 a.1) := R.nonneg (div_nonneg (R.nonneg (by linarith)) hd.le)
    have hm : 0 ≤ R.mul (R.div (R.sub b.2 a.2) (R.sub b.1 a.1)) (R.sub x a.1) := R.nonneg (mul_nonneg hs hx)
    refine ⟨R.ge_of_ge ha (by linarith), R.mono ?_⟩
    have := R.mono (mul_le_mul_of_nonneg_left hxy' hs)
    unfold Rounding.mul
    linarith
  · intro h
    have nonpos : ∀ {z : ℝ}, z ≤ 0 → R.rd z ≤ 0 := fun hz => by have := R.mono hz; rwa [R.zero] at this
    have hs : R.div (R.sub b.2 a.2) (R.sub b.1 a.1) ≤ 0 := nonpos (div_nonpos_of_nonpos_of_nonneg (nonpos (by linarith)) hd.le)
    have hm : R.mul (R.div (R.sub b.2 a.2) (R.sub b.1 a.1)) (R.sub x a.1) ≤ 0 := nonpos (mul_nonpos_of_nonpos_of_nonneg hs hx)
    refine ⟨R.le_of_le ha (by linarith), R.mono ?_⟩
    have := R.mono (mul_le_mul_of_nonpos_left hxy' hs)
    unfold Rounding.mul
    linarith

/-- **C166** (deviation) Just below a node the interpolated value can be larger than the values of both neighbours, so the interpolation is not monotone: in double precision between (-25, 0) and (0, 7) it is 7 + 2^-50 at -2^-60. -/
theorem C166_overshoot_deviation : interp double [(-25, 0), (0, 7)] (-2 ^ (-60 : ℤ)) = 7 + 2 ^ (-50 : ℤ) ∧ interp double [(-25, 0), (0, 7)] 0 = 7 := by
  have e7 : double.sub 7 0 = 7 := by
    have := double.nat 7 (by show 7 ≤ 2 ^ 53; norm_num)
    unfold Rounding.sub
    rw [sub_zero]
    exact_mod_cast this
  have e25 : double.sub 0 (-25) = 25 := by
    have := double.nat 25 (by show 25 ≤ 2 ^ 53; norm_num)
    unfold Rounding.sub
    rw [zero_sub, neg_neg]
    exact_mod_cast this
  have ex : double.sub (-2 ^ (-60 : ℤ)) (-25) = 25 := by
    have := Binary.rd_eq 53 (x := -2 ^ (-60 : ℤ) - -25) (m := 7036874417766400) (e := -48) (by norm_num) (by norm_num) (by norm_num) (by norm_num) (by norm_num)
    refine Eq.trans this ?_
    norm_num
  have es : double.div 7 25 = 5044031582654956 * (2 : ℝ) ^ (-54 : ℤ) := by
    have := Binary.rd_eq 53 (x := 7 / 25) (m := 5044031582654956) (e := -54) (by norm_num) (by norm_num) (by norm_num) (by norm_num) (by norm_num)
    exact_mod_cast this
  have em : double.mul (5044031582654956 * (2 : ℝ) ^ (-54 : ℤ)) 25 = 7 + 2 ^ (-50 : ℤ) := by
    have := Binary.rd_eq 53 (x := 5044031582654956 * (2 : ℝ) ^ (-54 : ℤ) * 25) (m := 7881299347898369) (e := -50) (by norm_num) (by norm_num) (by norm_num) (by norm_num) (by norm_num)
    refine Eq.trans this ?_
    norm_num
  constructor
  · have h1 : ¬ (-2 ^ (-60 : ℤ) : ℝ) < -25 := by norm_num
    have h2 : (-2 ^ (-60 : ℤ) : ℝ) < 0 := by norm_num
    have h3 : ¬ (-2 ^ (-60 : ℤ) : ℝ) = -25 := by norm_num
    unfold interp interpGo
    dsimp only
    rw [if_neg h1, if_pos h2, if_neg h3]
    unfold lineAt
    dsimp only
    rw [e7, e25, ex, es, em]
    have : double.rd (double.mul (5044031582654956 * (2 : ℝ) ^ (-54 : ℤ)) 25) = double.mul (5044031582654956 * (2 : ℝ) ^ (-54 : ℤ)) 25 := double.idem _
    rw [em] at this
    unfold Rounding.add
    rw [add_zero]
    exact this
  · have h1 : ¬ (0 : ℝ) < -25 := by norm_num
    unfold interp interpGo
    dsimp only
    rw [if_neg h1, if_neg (lt_irrefl _)]
    rfl

/-- relative error of a quotient of rounded numbers -/
theorem slope_off {x y : ℝ} (hy : 0 < y) : |R.div (R.rd x) (R.rd y) - x / y| ≤ ((1 + R.u) ^ 2 / (1 - R.u) - 1) * |x / y| := by
  have hu := R.u_nonneg
  have hu1 : 0 < 1 - R.u := by linarith [R.u_lt_one]
  obtain ⟨θ1, h1, e1⟩ := rd_rel R x
  obtain ⟨θ2, h2, e2⟩ := rd_rel R y
  obtain ⟨θ3, h3, e3⟩ := rd_rel R (R.rd x / R.rd y)
  rw [abs_le] at h1 h2 h3
  have p2 : 0 < 1 + θ2 := by linarith [h2.1]
  unfold Rounding.div
  rw [e3, e1, e2]
  have e : x * (1 + θ1) / (y * (1 + θ2)) * (1 + θ3) - x / y = x / y * ((1 + θ1) * (1 + θ3) / (1 + θ2) - 1) := by field_simp
  rw [e, abs_mul, mul_comm]
  refine mul_le_mul_of_nonneg_right ?_ (abs_nonneg _)
  have a1 : (1 + θ1) * (1 + θ3) ≤ (1 + R.u) ^ 2 := by nlinarith [h1.1, h1.2, h3.1, h3.2, R.u_lt_one]
  have a2 : (1 - R.u) ^ 2 ≤ (1 + θ1) * (1 + θ3) := by nlinarith [h1.1, h1.2, h3.1, h3.2, R.u_lt_one]
  have b1 : (1 + θ1) * (1 + θ3) / (1 + θ2) ≤ (1 + R.u) ^ 2 / (1 - R.u) := div_le_div₀ (by positivity) a1 hu1 (by linarith [h2.1])
  have b2 : (1 - R.u) ^ 2 / (1 + R.u) ≤ (1 + θ1) * (1 + θ3) / (1 + θ2) := div_le_div₀ (by nlinarith [h1.1, h3.1]) a2 p2 (by linarith [h2.2])
  have b3 : 2 ≤ (1 + R.u) ^ 2 / (1 - R.u) + (1 - R.u) ^ 2 / (1 + R.u) := by
    rw [div_add_div _ _ hu1.ne' (by linarith), le_div_iff₀ (mul_pos hu1 (by linarith))]
    nlinarith [pow_nonneg hu 2]
  rw [abs_le]
  constructor <;> linarith

/-- **C166** The computed interpolation differs from the exact one by about five roundings of the sizes of the values: if all values lie between `lo` and `hi`, by at most `((1+u)^5/(1-u) - 1) * (hi - lo + max |lo| |hi|)`. -/
theorem C166_interp_error (nodes : List (ℝ × ℝ)) (hn : nodes ≠ []) (hs : SortedNodes nodes) {lo hi : ℝ} (hb : ∀ a ∈ nodes, lo ≤ a.2 ∧ a.2 ≤ hi) (x : ℝ) :
    ∃ w, Np.interp (finNodes nodes) (.fin x) = .fin w ∧ lo ≤ w ∧ w ≤ hi ∧ |interp R nodes x - w| ≤ ((1 + R.u) ^ 5 / (1 - R.u) - 1) * (hi - lo + max |lo| |hi|) := by
  have hu := R.u_nonneg
  have hu1 : 0 < 1 - R.u := by linarith [R.u_lt_one]
  have one1 : (1 : ℝ) ≤ (1 + R.u) ^ 5 := one_le_pow₀ (by linarith)
  have hE : 0 ≤ (1 + R.u) ^ 5 / (1 - R.u) - 1 := by
    rw [sub_nonneg, le_div_iff₀ hu1]
    linarith
  obtain ⟨w, hw, w1, w2⟩ := interp_bounds nodes hs x hn lo hi hb
  refine ⟨w, hw, w1, w2, ?_⟩
  have hS : 0 ≤ hi - lo + max |lo| |hi| := add_nonneg (by linarith) ((abs_nonneg _).trans (le_max_left _ _))
  have hwx : w = interp (Rounding.exact 1 le_rfl) nodes x := by
    rw [C166_interp_agrees 1 le_rfl nodes hn hs x] at hw
    exact (FV.fin.inj hw).symm
  rcases interp_cases nodes hn hs x with ⟨b, hb', -, h2⟩ | ⟨a, b, hab, h1, h2⟩ | ⟨b, hb', -, h2⟩
  · rw [hwx, h2, h2, sub_self, abs_zero]
    exact mul_nonneg hE hS
  · obtain ⟨ma, mb⟩ := infix_mem hab
    rw [hwx, interp_segment nodes hs hab h1 h2, interp_segment nodes hs hab h1 h2]
    split
    · rw [sub_self, abs_zero]
      exact mul_nonneg hE hS
    · rw [lineAt_exact]
      have hd : 0 < b.1 - a.1 := by linarith
      have k1 := slope_off (R := R) (x := b.2 - a.2) hd
      set s := (b.2 - a.2) / (b.1 - a.1) with hsdef
      set s' := R.div (R.rd (b.2 - a.2)) (R.rd (b.1 - a.1)) with hs'
      set g := (1 + R.u) ^ 2 / (1 - R.u) with hg
      have hg1 : 1 ≤ g := by
        rw [hg, le_div_iff₀ hu1]
        nlinarith
      -- the slope term
      have k2 : |R.mul s' (R.sub x a.1) - s * (x - a.1)| ≤ (g * (1 + R.u) ^ 2 - 1) * |s * (x - a.1)| := by
        obtain ⟨θ1, t1, e1⟩ := rd_rel R (x - a.1)
        obtain ⟨θ2, t2, e2⟩ := rd_rel R (s' * R.sub x a.1)
        unfold Rounding.mul
        rw [e2]
        unfold Rounding.sub
        rw [e1]
        have hs'' : |s'| ≤ g * |s| := by
          have := abs_add_le (s' - s) s
          rw [sub_add_cancel] at this
          linarith
        have ht : |(1 + θ1) * (1 + θ2) - 1| ≤ (1 + R.u) ^ 2 - 1 := by
          rw [abs_le] at *
          constructor <;> nlinarith [t1.1, t1.2, t2.1, t2.2, R.u_lt_one]
        have e : s' * ((x - a.1) * (1 + θ1)) * (1 + θ2) - s * (x - a.1) = (x - a.1) * (s' * ((1 + θ1) * (1 + θ2) - 1) + (s' - s)) := by ring
        rw [e, abs_mul, abs_mul]
        have : |s' * ((1 + θ1) * (1 + θ2) - 1) + (s' - s)| ≤ (g * (1 + R.u) ^ 2 - 1) * |s| := by
          refine (abs_add_le _ _).trans ?_
          rw [abs_mul]
          have := mul_le_mul hs'' ht (abs_nonneg _) (mul_nonneg (by linarith) (abs_nonneg s))
          nlinarith [abs_nonneg s]
        have := mul_le_mul_of_nonneg_left this (abs_nonneg (x - a.1))
        linarith
      have k3 := R.close (R.mul s' (R.sub x a.1) + a.2)
      have hT : |s * (x - a.1)| ≤ hi - lo := by
        have e : s * (x - a.1) = (b.2 - a.2) * ((x - a.1) / (b.1 - a.1)) := by rw [hsdef]; ring
        rw [e, abs_mul]
        have q1 : |b.2 - a.2| ≤ hi - lo := by
          rw [abs_le]
          constructor <;> linarith [(hb a ma).1, (hb a ma).2, (hb b mb).1, (hb b mb).2]
        have q2 : |(x - a.1) / (b.1 - a.1)| ≤ 1 := by
          rw [abs_of_nonneg (div_nonneg (by linarith) hd.le), div_le_one hd]
          linarith
        have := mul_le_mul q1 q2 (abs_nonneg _) ((abs_nonneg _).trans q1)
        linarith
      have hA : |a.2| ≤ max |lo| |hi| := abs_le_max_abs_abs (hb a ma).1 (hb a ma).2
      show |R.rd (R.mul s' (R.sub x a.1) + a.2) - (s * (x - a.1) + a.2)| ≤ _
      clear_value s s' g
      set p := R.mul s' (R.sub x a.1) with hp
      set t := s * (x - a.1) with htdef
      have e : R.rd (p + a.2) - (t + a.2) = (R.rd (p + a.2) - (p + a.2)) + (p - t) := by ring
      rw [e]
      refine (abs_add_le _ _).trans ?_
      have hpa : |p + a.2| ≤ g * (1 + R.u) ^ 2 * |t| + |a.2| := by
        have h3 : |p| ≤ g * (1 + R.u) ^ 2 * |t| := by
          have := abs_add_le (p - t) t
          rw [sub_add_cancel] at this
          linarith
        exact (abs_add_le _ _).trans (by linarith)
      have k4 := mul_le_mul_of_nonneg_left hpa hu
      have e5 : (1 + R.u) ^ 5 / (1 - R.u) = g * (1 + R.u) ^ 3 := by rw [hg]; ring
      rw [e5]
      have hG : 1 ≤ g * (1 + R.u) ^ 2 := by nlinarith [one_le_pow₀ (n := 2) (show 1 ≤ 1 + R.u by linarith)]
      have f1 : (g * (1 + R.u) ^ 3 - 1) * |t| ≤ (g * (1 + R.u) ^ 3 - 1) * (hi - lo) := mul_le_mul_of_nonneg_left hT (by
        have : 1 * 1 ≤ (1 + R.u) * (g * (1 + R.u) ^ 2) := mul_le_mul (by linarith) hG (by norm_num) (by linarith)
        linarith)
      have hG3 : 1 + R.u ≤ g * (1 + R.u) ^ 3 := by
        have : (1 + R.u) * 1 ≤ (1 + R.u) * (g * (1 + R.u) ^ 2) := mul_le_mul_of_nonneg_left hG (by linarith)
        linarith
      have f2 : R.u * |a.2| ≤ (g * (1 + R.u) ^ 3 - 1) * max |lo| |hi| := mul_le_mul (by linarith) hA (abs_nonneg _) (by linarith)
      have e6 : (g * (1 + R.u) ^ 3 - 1) * |t| = R.u * (g * (1 + R.u) ^ 2 * |t|) + (g * (1 + R.u) ^ 2 - 1) * |t| := by ring
      have e7 : R.u * (g * (1 + R.u) ^ 2 * |t| + |a.2|) = R.u * (g * (1 + R.u) ^ 2 * |t|) + R.u * |a.2| := by ring
      rw [mul_add]
      rw [e7] at k4
      linarith only [k2, k3, k4, f1, f2, e6]
  · rw [hwx, h2, h2, sub_self, abs_zero]
    exact mul_nonneg hE hS

/-! ## The background estimate -/

theorem quotient_error {A D A' D' a d : ℝ} (hA : 0 ≤ A) (ha : |A' - A| ≤ a) (hd : |D' - D| ≤ d) (hD : d < D) : 0 < D' ∧ |A' / D' - A / D| ≤ (a + A / D * d) / (D - d) := by
  have hd0 : 0 ≤ d := (abs_nonneg _).trans hd
  have hD0 : 0 < D := lt_of_le_of_lt hd0 hD
  have hD' : D - d ≤ D' := by linarith [(abs_le.mp hd).1]
  have hp : 0 < D' := by linarith
  refine ⟨hp, ?_⟩
  have e : A' / D' - A / D = ((A' - A) + A / D * (D - D')) / D' := by field_simp; ring
  rw [e, abs_div, abs_of_pos hp]
  refine div_le_div₀ ?_ ?_ (by linarith) hD'
  · have := (abs_nonneg _).trans ha
    positivity
  · refine (abs_add_le _ _).trans ?_
    rw [abs_mul, abs_of_nonneg (div_nonneg hA hD0.le), abs_sub_comm D D']
    have := mul_le_mul_of_nonneg_left hd (div_nonneg hA hD0.le)
    linarith

/-- the cell for a ring with positive solid angle -/
theorem cell_of {pi : ℝ} {cos : ℝ → ℝ} {cuts : List (ℝ × ℝ)} {center offMin offMax alpha n : ℝ} (hα : alpha ≠ 0) (h : R.sub (coneSolidAngle R pi cos offMax) (coneSolidAngle R pi cos offMin) ≠ 0) :
    backgroundCell R pi cos cuts center offMin offMax alpha n =
      .fin (R.div (R.mul n (R.div (coneSolidAngle R pi cos (interp R cuts center)) (R.sub (coneSolidAngle R pi cos offMax) (coneSolidAngle R pi cos offMin)))) alpha) := by
  unfold backgroundCell sizeRatio
  rw [FV.fin_div_fin _ _ h]
  show rdFV R (rdFV R (.fin n * .fin (R.rd _)) / .fin alpha) = _
  rw [FV.fin_mul_fin]
  show rdFV R (.fin (R.rd _) / .fin alpha) = _
  rw [FV.fin_div_fin _ _ hα]
  rfl

/-- **C166** The background estimate of a bin in floating point, with numpy's pi and cosine within one unit of the exact values: if the solid angle of the ring exceeds its rounding errors, the scaled content is a number that is not negative, 0 for an empty bin, and
differs from the content times the exact ratio of solid angles over alpha, for the exactly interpolated cut, by at most three roundings and the errors of the two solid angles and of the interpolation. -/
theorem C166_background (hu : R.u ≤ 1 / 100) {pi : ℝ} (hpi : |pi - Real.pi| ≤ R.u * Real.pi) {cos : ℝ → ℝ} (hcos : ∀ x, |cos x| ≤ 1 ∧ |cos x - Real.cos x| ≤ R.u)
    (cuts : List (ℝ × ℝ)) (hn : cuts ≠ []) (hs : SortedNodes cuts) {lo hi : ℝ} (hb : ∀ a ∈ cuts, lo ≤ a.2 ∧ a.2 ≤ hi) (center : ℝ) {offMin offMax alpha n : ℝ} (hα : 0 < alpha) (h0 : 0 ≤ n)
    (hring : 46 * Real.pi * R.u < 2 * Real.pi * (Real.cos offMin - Real.cos offMax)) :
    ∃ θ v, Np.interp (finNodes cuts) (.fin center) = .fin θ ∧ lo ≤ θ ∧ θ ≤ hi ∧ backgroundCell R pi cos cuts center offMin offMax alpha n = .fin v ∧ 0 ≤ v ∧ (n = 0 → v = 0) ∧
      let on := 2 * Real.pi * (1 - Real.cos θ)
      let ring := 2 * Real.pi * (Real.cos offMin - Real.cos offMax)
      let angleError := 20 * Real.pi * R.u + 2 * Real.pi * (((1 + R.u) ^ 5 / (1 - R.u) - 1) * (hi - lo + max |lo| |hi|))
      let ratioError := (angleError + on / ring * (46 * Real.pi * R.u)) / (ring - 46 * Real.pi * R.u)
      |v - n * (on / ring) / alpha| ≤ n / alpha * (((1 + R.u) ^ 3 - 1) * (on / ring) + (1 + R.u) ^ 3 * ratioError) := by
  have hP := Real.pi_pos
  have hu0 := R.u_nonneg
  obtain ⟨hc, hann⟩ := C144_solid_angle_error R hu pi hpi cos hcos
  obtain ⟨θ, hθ, t1, t2, t3⟩ := C166_interp_error (R := R) cuts hn hs hb center
  have hD := hann ![offMin, offMax] 0
  change |R.sub (coneSolidAngle R pi cos offMax) (coneSolidAngle R pi cos offMin) - 2 * Real.pi * (Real.cos offMin - Real.cos offMax)| ≤ 46 * Real.pi * R.u at hD
  have hA : |coneSolidAngle R pi cos (interp R cuts center) - 2 * Real.pi * (1 - Real.cos θ)| ≤ 20 * Real.pi * R.u + 2 * Real.pi * (((1 + R.u) ^ 5 / (1 - R.u) - 1) * (hi - lo + max |lo| |hi|)) := by
    have h1 := hc (interp R cuts center)
    have h2 := ((Real.abs_cos_sub_cos_le θ (interp R cuts center)).trans_eq (abs_sub_comm _ _)).trans t3
    have e : coneSolidAngle R pi cos (interp R cuts center) - 2 * Real.pi * (1 - Real.cos θ) =
        (coneSolidAngle R pi cos (interp R cuts center) - 2 * Real.pi * (1 - Real.cos (interp R cuts center))) + 2 * Real.pi * (Real.cos θ - Real.cos (interp R cuts center)) := by ring
    rw [e]
    refine (abs_add_le _ _).trans (add_le_add h1 ?_)
    rw [abs_mul, abs_of_pos (by linarith : 0 < 2 * Real.pi)]
    exact mul_le_mul_of_nonneg_left h2 (by linarith)
  have hA0 : 0 ≤ 2 * Real.pi * (1 - Real.cos θ) := mul_nonneg (by linarith) (by linarith [Real.cos_le_one θ])
  have hcone : 0 ≤ coneSolidAngle R pi cos (interp R cuts center) := by
    have : 0 ≤ pi := by
      have := (abs_le.mp hpi).1
      nlinarith
    exact R.nonneg (mul_nonneg (R.nonneg (by linarith)) (R.nonneg (by linarith [(abs_le.mp (hcos (interp R cuts center)).1).2])))
  obtain ⟨hDpos, hq⟩ := quotient_error hA0 hA hD hring
  refine ⟨θ, _, hθ, t1, t2, cell_of hα.ne' hDpos.ne', ?_, ?_, ?_⟩
  · exact R.nonneg (div_nonneg (R.nonneg (mul_nonneg h0 (R.nonneg (div_nonneg hcone hDpos.le)))) hα.le)
  · intro h
    rw [h]
    unfold Rounding.mul Rounding.div
    rw [zero_mul, R.zero, zero_div, R.zero]
  · intro on ring angleError ratioError
    change |_ - on / ring| ≤ ratioError at hq
    generalize coneSolidAngle R pi cos (interp R cuts center) = A' at hq hcone
    generalize R.sub (coneSolidAngle R pi cos offMax) (coneSolidAngle R pi cos offMin) = D' at hq hDpos
    have k1 := off_rd R (A' / D')
    have k2 : Off R 2 (n * (A' / D')) (R.mul n (R.div A' D')) := by
      have hnn : Off R 0 n n := by unfold Off; simp
      have := (hnn.mul k1).round
      exact this
    have k3 : Off R 3 (n * (A' / D') / alpha) (R.div (R.mul n (R.div A' D')) alpha) := by
      have : Off R 2 (n * (A' / D') / alpha) (R.mul n (R.div A' D') / alpha) := by
        unfold Off at *
        rw [← sub_div, abs_div, abs_div _ alpha]
        have := div_le_div_of_nonneg_right k2 (abs_nonneg alpha)
        rwa [mul_div_assoc] at this
      exact this.round
    unfold Off at k3
    rw [abs_of_nonneg (show 0 ≤ n * (A' / D') / alpha by positivity)] at k3
    have hna : 0 ≤ n / alpha := by positivity
    have h3 : (1 : ℝ) ≤ (1 + R.u) ^ 3 := one_le_pow₀ (by linarith)
    have e : R.div (R.mul n (R.div A' D')) alpha - n * (on / ring) / alpha = (R.div (R.mul n (R.div A' D')) alpha - n * (A' / D') / alpha) + n / alpha * (A' / D' - on / ring) := by ring
    rw [e]
    refine (abs_add_le _ _).trans ?_
    rw [abs_mul, abs_of_nonneg hna]
    have h4 := mul_le_mul_of_nonneg_left hq hna
    have h5 : A' / D' ≤ on / ring + ratioError := by linarith [(abs_le.mp hq).2]
    have h6 := mul_le_mul_of_nonneg_left h5 (mul_nonneg (show 0 ≤ (1 + R.u) ^ 3 - 1 by linarith) hna)
    have e7 : ((1 + R.u) ^ 3 - 1) * (n * (A' / D') / alpha) = ((1 + R.u) ^ 3 - 1) * (n / alpha) * (A' / D') := by ring
    rw [e7] at k3
    linarith

/-- **C166** In double precision, for cuts between 0.001 and 1 radians, a ring of at least 10^-5 sr and pi and cosine accurate to one unit: the scaled content is right up to a relative error of 10^-7. -/
theorem C166_double {pi : ℝ} (hpi : |pi - Real.pi| ≤ (1 / 2) ^ 53 * Real.pi) {cos : ℝ → ℝ} (hcos : ∀ x, |cos x| ≤ 1 ∧ |cos x - Real.cos x| ≤ (1 / 2) ^ 53)
    (cuts : List (ℝ × ℝ)) (hn : cuts ≠ []) (hs : SortedNodes cuts) (hb : ∀ a ∈ cuts, 1 / 1000 ≤ a.2 ∧ a.2 ≤ 1) (center : ℝ) {offMin offMax alpha n : ℝ} (hα : 0 < alpha) (h0 : 0 ≤ n)
    (hring : 1 / 100000 ≤ 2 * Real.pi * (Real.cos offMin - Real.cos offMax)) :
    ∃ θ v, Np.interp (finNodes cuts) (.fin center) = .fin θ ∧ backgroundCell double pi cos cuts center offMin offMax alpha n = .fin v ∧
      let exact := n * (2 * Real.pi * (1 - Real.cos θ) / (2 * Real.pi * (Real.cos offMin - Real.cos offMax))) / alpha
      |v - exact| ≤ 1 / 10000000 * exact := by
  have hP := Real.pi_pos
  have hP4 := Real.pi_le_four
  have hu : double.u = (1 / 2) ^ 53 := rfl
  have hsmall : 46 * Real.pi * (1 / 2) ^ 53 ≤ 1 / 10 ^ 13 := by
    have : 46 * Real.pi * (1 / 2) ^ 53 ≤ 46 * 4 * (1 / 2) ^ 53 := by gcongr
    refine this.trans ?_
    norm_num
  obtain ⟨θ, v, h1, h2, h3, h4, -, -, h5⟩ := C166_background (R := double) (by rw [hu]; norm_num) (by rw [hu]; exact hpi) (by rw [hu]; exact hcos) cuts hn hs hb center hα h0
    (by rw [hu]; refine lt_of_le_of_lt hsmall (lt_of_lt_of_le ?_ hring); norm_num)
  refine ⟨θ, v, h1, h4, ?_⟩
  dsimp only at h5 ⊢
  rw [hu] at h5
  generalize hring' : 2 * Real.pi * (Real.cos offMin - Real.cos offMax) = ring at hring h5 ⊢
  -- the solid angle of the cut
  have hon : 1 / 2000000 ≤ 2 * Real.pi * (1 - Real.cos θ) := by
    have hq := Real.cos_le_one_sub_mul_cos_sq (x := θ) (by rw [abs_of_nonneg (by linarith)]; linarith [Real.pi_gt_three])
    have hθ2 : 1 / 1000000 ≤ θ ^ 2 := by nlinarith
    have hpp : Real.pi ^ 2 ≤ 16 := by nlinarith
    have : 1 / 8 * θ ^ 2 ≤ 2 / Real.pi ^ 2 * θ ^ 2 := by
      refine mul_le_mul_of_nonneg_right ?_ (by positivity)
      rw [div_le_div_iff₀ (by norm_num) (by positivity)]
      linarith
    have hk : 1 / 8000000 ≤ 1 - Real.cos θ := by linarith
    nlinarith [Real.pi_gt_three]
  generalize 2 * Real.pi * (1 - Real.cos θ) = on at hon h5 ⊢
  have hmax : max |(1 / 1000 : ℝ)| |1| = 1 := by norm_num
  rw [hmax] at h5
  have hEE : (1 + (1 / 2 : ℝ) ^ 53) ^ 5 / (1 - (1 / 2) ^ 53) - 1 ≤ 7 * (1 / 2) ^ 53 := by norm_num
  have hE0 : 0 ≤ (1 + (1 / 2 : ℝ) ^ 53) ^ 5 / (1 - (1 / 2) ^ 53) - 1 := by norm_num
  have ha : 20 * Real.pi * (1 / 2) ^ 53 + 2 * Real.pi * (((1 + (1 / 2) ^ 53) ^ 5 / (1 - (1 / 2) ^ 53) - 1) * (1 - 1 / 1000 + 1)) ≤ 1 / (4 * 10 ^ 13) := by
    have a1 : 20 * Real.pi * (1 / 2) ^ 53 ≤ 20 * 4 * (1 / 2) ^ 53 := by gcongr
    have a2 : 2 * Real.pi * (((1 + (1 / 2) ^ 53) ^ 5 / (1 - (1 / 2) ^ 53) - 1) * (1 - 1 / 1000 + 1)) ≤ 2 * 4 * (7 * (1 / 2) ^ 53 * (1 - 1 / 1000 + 1)) := by
      refine mul_le_mul (by linarith) (mul_le_mul_of_nonneg_right hEE (by norm_num)) (mul_nonneg hE0 (by norm_num)) (by norm_num)
    refine (add_le_add a1 a2).trans ?_
    norm_num
  have ha0 : 0 ≤ 20 * Real.pi * (1 / 2) ^ 53 + 2 * Real.pi * (((1 + (1 / 2) ^ 53) ^ 5 / (1 - (1 / 2) ^ 53) - 1) * (1 - 1 / 1000 + 1)) :=
    add_nonneg (by positivity) (mul_nonneg (by linarith) (mul_nonneg hE0 (by norm_num)))
  have hd : 46 * Real.pi * (1 / 2) ^ 53 ≤ 3 / 10 ^ 14 := by
    have : 46 * Real.pi * (1 / 2) ^ 53 ≤ 46 * 4 * (1 / 2) ^ 53 := by gcongr
    refine this.trans ?_
    norm_num
  have hd0 : 0 ≤ 46 * Real.pi * (1 / 2) ^ 53 := by positivity
  generalize 20 * Real.pi * (1 / 2) ^ 53 + 2 * Real.pi * (((1 + (1 / 2) ^ 53) ^ 5 / (1 - (1 / 2) ^ 53) - 1) * (1 - 1 / 1000 + 1)) = a at ha ha0 h5
  generalize 46 * Real.pi * (1 / 2) ^ 53 = d at hd hd0 h5
  have hr : 0 < ring := by linarith
  have hq0 : 0 ≤ on / ring := div_nonneg (by linarith) hr.le
  have hqr : on = on / ring * ring := by field_simp
  have hrat : (a + on / ring * d) / (ring - d) ≤ 6 / 10 ^ 8 * (on / ring) := by
    rw [div_le_iff₀ (by linarith)]
    have b1 : a ≤ 5 / 10 ^ 8 * on := by linarith
    rw [hqr] at b1
    generalize on / ring = q at *
    nlinarith [mul_nonneg hq0 hd0, mul_le_mul_of_nonneg_left hring hq0, mul_le_mul_of_nonneg_left hd hq0]
  refine h5.trans ?_
  have hna : 0 ≤ n / alpha := by positivity
  have e : 1 / 10000000 * (n * (on / ring) / alpha) = n / alpha * (1 / 10000000 * (on / ring)) := by ring
  rw [e]
  refine mul_le_mul_of_nonneg_left ?_ hna
  have c1 : ((1 + (1 / 2 : ℝ) ^ 53) ^ 3 - 1) * (on / ring) ≤ 1 / 10 ^ 8 * (on / ring) := mul_le_mul_of_nonneg_right (by norm_num) hq0
  have c2 : (1 + (1 / 2 : ℝ) ^ 53) ^ 3 * ((a + on / ring * d) / (ring - d)) ≤ 101 / 100 * (6 / 10 ^ 8 * (on / ring)) := mul_le_mul (by norm_num) hrat
    (div_nonneg (add_nonneg ha0 (mul_nonneg hq0 hd0)) (by linarith)) (by norm_num)
  nlinarith

/-- **C166** (deviation) If both offsets of the ring are so small that their cosine is 1 (squares at most 2^-p, cosine rounded to nearest), its solid angle is 0 as computed: a bin without events gets NaN, and the others NaN or infinity. -/
theorem C166_ring_deviation (p : ℕ) (hp : 1 ≤ p) (pi : ℝ) (cuts : List (ℝ × ℝ)) (center : ℝ) {offMin offMax alpha : ℝ} (hα : 0 < alpha) (h1 : offMin ^ 2 ≤ (2 : ℝ)⁻¹ ^ p) (h2 : offMax ^ 2 ≤ (2 : ℝ)⁻¹ ^ p) :
    let cell := backgroundCell (Rounding.binary p hp) pi (fun x => (Rounding.binary p hp).rd (Real.cos x)) cuts center offMin offMax alpha
    cell 0 = .nan ∧ ∀ n, 0 < n → 0 ≤ pi → cell n = .nan ∨ cell n = .pinf := by
  intro cell
  have hz : (Rounding.binary p hp).sub (coneSolidAngle (Rounding.binary p hp) pi (fun x => (Rounding.binary p hp).rd (Real.cos x)) offMax) (coneSolidAngle (Rounding.binary p hp) pi (fun x => (Rounding.binary p hp).rd (Real.cos x)) offMin) = 0 := by
    rw [C144_solid_angle_zero p hp pi _ h1, C144_solid_angle_zero p hp pi _ h2]
    unfold Rounding.sub
    rw [sub_self, Rounding.zero]
  set A := coneSolidAngle (Rounding.binary p hp) pi (fun x => (Rounding.binary p hp).rd (Real.cos x)) (interp (Rounding.binary p hp) cuts center) with hA
  have hc : ∀ n, cell n = rdFV (Rounding.binary p hp) (rdFV (Rounding.binary p hp) (.fin n * rdFV (Rounding.binary p hp) (FV.infSign A)) / .fin alpha) := by
    intro n
    show backgroundCell _ _ _ _ _ _ _ _ _ = _
    unfold backgroundCell sizeRatio
    rw [hz, FV.fin_div_zero]
  constructor
  · rw [hc]
    have z1 : (FV.fin 0 * .pinf : FV ℝ) = .nan := by
      show FV.infSign 0 = _
      simp [FV.infSign]
    have z2 : (FV.fin 0 * .ninf : FV ℝ) = .nan := by
      show FV.infSign (-0) = _
      simp [FV.infSign]
    have z3 : ∀ v : FV ℝ, v = .nan ∨ v = .pinf ∨ v = .ninf → rdFV (Rounding.binary p hp) (rdFV (Rounding.binary p hp) (.fin 0 * rdFV (Rounding.binary p hp) v) / .fin alpha) = .nan := by
      rintro v (rfl | rfl | rfl)
      · simp [rdFV]
      · simp [rdFV, z1]
      · simp [rdFV, z2]
    apply z3
    unfold FV.infSign
    split_ifs <;> simp
  · intro n hn hpi
    rw [hc]
    have hA0 : 0 ≤ A := by
      refine Rounding.nonneg _ (mul_nonneg (Rounding.nonneg _ (by linarith)) (Rounding.nonneg _ ?_))
      have := Rounding.le_of_le (Rounding.binary p hp) (Rounding.one _) (Real.cos_le_one (interp (Rounding.binary p hp) cuts center))
      linarith
    rcases hA0.lt_or_eq with h | h
    · right
      have : FV.infSign A = .pinf := by unfold FV.infSign; simp [h, h.le, h.ne', not_lt.mpr h.le]
      rw [this]
      show rdFV _ (rdFV _ (FV.fin n * .pinf) / .fin alpha) = _
      have e1 : (FV.fin n * .pinf : FV ℝ) = .pinf := by
        show FV.infSign n = _
        unfold FV.infSign; simp [hn, hn.le, hn.ne', not_lt.mpr hn.le]
      rw [e1]
      show rdFV _ (FV.pinf / .fin alpha) = _
      have e2 : (FV.pinf / .fin alpha : FV ℝ) = .pinf := by
        show (if alpha < 0 then FV.ninf else FV.pinf) = _
        rw [if_neg (not_lt.mpr hα.le)]
      rw [e2]
      rfl
    · left
      have : FV.infSign A = .nan := by rw [← h]; unfold FV.infSign; simp
      rw [this]
      simp [rdFV]

/-- **C166** (deviation) Cuts of at most about 10^-8 (squares at most 2^-p) give the background 0 whatever the events. -/
theorem C166_cut_deviation (p : ℕ) (hp : 1 ≤ p) (pi : ℝ) (cuts : List (ℝ × ℝ)) (hn : cuts ≠ []) (hs : SortedNodes cuts) {cut : ℝ} (hall : ∀ a ∈ cuts, a.2 = cut) (hcut : (Rounding.binary p hp).Is cut) (h2 : cut ^ 2 ≤ (2 : ℝ)⁻¹ ^ p)
    (center : ℝ) {offMin offMax alpha n : ℝ} (hα : 0 < alpha)
    (hring : (Rounding.binary p hp).sub (coneSolidAngle (Rounding.binary p hp) pi (fun x => (Rounding.binary p hp).rd (Real.cos x)) offMax) (coneSolidAngle (Rounding.binary p hp) pi (fun x => (Rounding.binary p hp).rd (Real.cos x)) offMin) ≠ 0) :
    backgroundCell (Rounding.binary p hp) pi (fun x => (Rounding.binary p hp).rd (Real.cos x)) cuts center offMin offMax alpha n = .fin 0 := by
  rw [cell_of hα.ne' hring, (C166_interp_exact cuts hn hs).2.2.2 cut center hcut hall, C144_solid_angle_zero p hp pi cut h2]
  unfold Rounding.div Rounding.mul
  rw [zero_div, Rounding.zero, mul_zero, Rounding.zero, zero_div, Rounding.zero]

/-- **C166** Without rounding a cell is the one of `estimate_background` of the other theorems: content times ratio of the solid angles over alpha. -/
theorem C166_agrees (k : ℕ) (hk : 1 ≤ k) (cuts : List (ℝ × ℝ)) (hn : cuts ≠ []) (hs : SortedNodes cuts) (center offMin offMax alpha n : ℝ) :
    backgroundCell (Rounding.exact k hk) Real.pi Real.cos cuts center offMin offMax alpha n =
      .fin n * (Utils.coneSolidAngleF (Np.interp (finNodes cuts) (.fin center)) / (Utils.coneSolidAngleF (.fin offMax) - Utils.coneSolidAngleF (.fin offMin))) / .fin alpha := by
  have hid : ∀ x : FV ℝ, rdFV (Rounding.exact k hk) x = x := by
    intro x
    cases x <;> rfl
  unfold backgroundCell sizeRatio
  rw [hid, hid, hid, C166_interp_agrees k hk cuts hn hs]
  rfl

/-! ## The hypotheses are satisfiable -/

/-- three cuts, a ring between 0 and 1 degree; pi and cosine rounded to nearest -/
example : ∃ (pi : ℝ) (cos : ℝ → ℝ), |pi - Real.pi| ≤ (1 / 2) ^ 53 * Real.pi ∧ (∀ x, |cos x| ≤ 1 ∧ |cos x - Real.cos x| ≤ (1 / 2) ^ 53) ∧
    SortedNodes [(1, 1 / 500), (2, 1 / 400), (3, (1 / 300 : ℝ))] ∧ (∀ a ∈ [(1, 1 / 500), (2, 1 / 400), (3, (1 / 300 : ℝ))], 1 / 1000 ≤ a.2 ∧ a.2 ≤ 1) ∧
    1 / 100000 ≤ 2 * Real.pi * (Real.cos 0 - Real.cos (Real.pi / 180)) := by
  refine ⟨Real.pi, Real.cos, by rw [sub_self, abs_zero]; positivity, fun x => ⟨Real.abs_cos_le_one x, by rw [sub_self, abs_zero]; positivity⟩, ?_, ?_, ?_⟩
  · unfold SortedNodes; norm_num
  · intro a ha
    simp only [List.mem_cons, List.not_mem_nil, or_false] at ha
    rcases ha with rfl | rfl | rfl <;> norm_num
  · have h3 := Real.pi_gt_three
    have hq := Real.cos_le_one_sub_mul_cos_sq (x := Real.pi / 180) (by rw [abs_of_nonneg (by positivity)]; linarith)
    have e : 2 / Real.pi ^ 2 * (Real.pi / 180) ^ 2 = 1 / 16200 := by field_simp; norm_num
    rw [e] at hq
    rw [Real.cos_zero]
    nlinarith

end Pyirf.Rounded
