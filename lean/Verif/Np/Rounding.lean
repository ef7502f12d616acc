import Mathlib.Data.Real.Archimedean
import Mathlib.Data.Int.Log
import Mathlib.Algebra.Order.Floor.Ring
import Mathlib.Tactic.Linarith
import Mathlib.Tactic.Positivity
import Mathlib.Tactic.FieldSimp
import Mathlib.Tactic.Ring

/-!
# Rounding of floating point arithmetic

The other models compute exactly. Here is the contract of rounded arithmetic: every operation gives the rounded value of the exact result. It holds for binary64 with rounding to nearest as long as no result overflows or
underflows (`u = 2^-53`, `limit = 2^53`); `Rounding.binary` is this arithmetic with an unbounded exponent, for any number of bits.
-/
set_option linter.unusedSectionVars false

namespace Pyirf.Np

/-- Rounding of real numbers to floating point numbers: increasing, leaves floating point numbers, in particular the natural numbers up to `limit`, as they are, symmetric in the sign, relative error at most `u`. -/
structure Rounding where
  rd : ℝ → ℝ
  mono : Monotone rd
  idem : ∀ x, rd (rd x) = rd x
  neg : ∀ x, rd (-x) = -rd x
  u : ℝ
  u_nonneg : 0 ≤ u
  u_lt_one : u < 1
  close : ∀ x, |rd x - x| ≤ u * |x|
  limit : ℕ
  limit_pos : 1 ≤ limit
  nat : ∀ n : ℕ, n ≤ limit → rd n = n

namespace Rounding
variable (R : Rounding)

/-- A number that is a floating point number. -/
def Is (x : ℝ) : Prop := R.rd x = x

/-- Rounded addition. -/
def add (x y : ℝ) : ℝ := R.rd (x + y)
/-- Rounded subtraction. -/
def sub (x y : ℝ) : ℝ := R.rd (x - y)
/-- Rounded multiplication. -/
def mul (x y : ℝ) : ℝ := R.rd (x * y)
/-- Rounded division. -/
noncomputable def div (x y : ℝ) : ℝ := R.rd (x / y)

theorem zero : R.rd 0 = 0 := by
  have := R.neg 0
  rw [neg_zero] at this
  linarith

theorem one : R.rd 1 = 1 := by
  have := R.nat 1 R.limit_pos
  simpa using this

theorem nonneg {x : ℝ} (h : 0 ≤ x) : 0 ≤ R.rd x := by
  have := R.mono h
  rwa [R.zero] at this

theorem pos {x : ℝ} (h : 0 < x) : 0 < R.rd x := by
  have h1 := R.close x
  rw [abs_of_pos h] at h1
  have h2 := (abs_le.mp h1).1
  have h3 := mul_lt_mul_of_pos_right R.u_lt_one h
  linarith

/-- bounds for positive numbers -/
theorem bounds {x : ℝ} (h : 0 ≤ x) : (1 - R.u) * x ≤ R.rd x ∧ R.rd x ≤ (1 + R.u) * x := by
  have h1 := R.close x
  rw [abs_of_nonneg h] at h1
  obtain ⟨h2, h3⟩ := abs_le.mp h1
  constructor <;> nlinarith

theorem le_of_le {x y : ℝ} (hy : R.Is y) (h : x ≤ y) : R.rd x ≤ y := by
  have := R.mono h
  rwa [hy] at this

theorem ge_of_ge {x y : ℝ} (hy : R.Is y) (h : y ≤ x) : y ≤ R.rd x := by
  have := R.mono h
  rwa [hy] at this

end Rounding

/-! ## An instance: binary floating point numbers with `p` bits -/

namespace Binary
variable (p : ℕ)

/-- the distance of neighbouring floating point numbers near `x` -/
noncomputable def ulp (x : ℝ) : ℝ := (2 : ℝ) ^ (Int.log 2 x - p + 1)

/-- round a positive number to a multiple of `ulp` -/
noncomputable def rdPos (x : ℝ) : ℝ := ⌊x / ulp p x + 1 / 2⌋ * ulp p x

/-- rounding to nearest -/
noncomputable def rd (x : ℝ) : ℝ := if 0 < x then rdPos p x else if x < 0 then -rdPos p (-x) else 0

theorem ulp_pos (x : ℝ) : 0 < ulp p x := zpow_pos (by norm_num) _

theorem ulp_scale (x : ℝ) (hp : 1 ≤ p) : (2 : ℝ) ^ (Int.log 2 x) = (2 : ℝ) ^ (p - 1) * ulp p x := by
  unfold ulp
  rw [← zpow_natCast, ← zpow_add₀ (by norm_num)]
  congr 1
  push_cast [Nat.cast_sub hp]
  ring

theorem log_le {x : ℝ} (hx : 0 < x) : (2 : ℝ) ^ (Int.log 2 x) ≤ x := by
  have := Int.zpow_log_le_self (R := ℝ) (b := 2) (by norm_num) hx
  exact_mod_cast this

theorem lt_log {x : ℝ} : x < (2 : ℝ) ^ (Int.log 2 x + 1) := by
  have := Int.lt_zpow_succ_log_self (R := ℝ) (b := 2) (by norm_num) x
  exact_mod_cast this

theorem rdPos_range (hp : 1 ≤ p) {x : ℝ} (hx : 0 < x) : (2 : ℝ) ^ (Int.log 2 x) ≤ rdPos p x ∧ rdPos p x ≤ (2 : ℝ) ^ (Int.log 2 x + 1) := by
  have hu := ulp_pos p x
  have hs := ulp_scale p x hp
  have h1 := log_le hx
  have h2 := lt_log (x := x)
  rw [zpow_add₀ (by norm_num), zpow_one] at h2 ⊢
  rw [hs] at h1 h2 ⊢
  have g1 : (2 : ℝ) ^ (p - 1) ≤ x / ulp p x := by rw [le_div_iff₀ hu]; exact h1
  have g2 : x / ulp p x < 2 ^ (p - 1) * 2 := by rw [div_lt_iff₀ hu]; nlinarith
  unfold rdPos
  constructor
  · apply mul_le_mul_of_nonneg_right _ hu.le
    have : ((2 ^ (p - 1) : ℤ)) ≤ ⌊x / ulp p x + 1 / 2⌋ := by
      rw [Int.le_floor]
      push_cast
      linarith
    exact_mod_cast this
  · have : ⌊x / ulp p x + 1 / 2⌋ ≤ ((2 ^ (p - 1) * 2 : ℤ)) := by
      rw [← Int.lt_add_one_iff, Int.floor_lt]
      push_cast
      linarith
    have h3 : ((⌊x / ulp p x + 1 / 2⌋ : ℤ) : ℝ) ≤ 2 ^ (p - 1) * 2 := by exact_mod_cast this
    nlinarith

theorem rdPos_pos (hp : 1 ≤ p) {x : ℝ} (hx : 0 < x) : 0 < rdPos p x :=
  lt_of_lt_of_le (zpow_pos (by norm_num) _) (rdPos_range p hp hx).1

theorem rdPos_mono (hp : 1 ≤ p) {x y : ℝ} (hx : 0 < x) (hxy : x ≤ y) : rdPos p x ≤ rdPos p y := by
  have hy := lt_of_lt_of_le hx hxy
  have hl : Int.log 2 x ≤ Int.log 2 y := Int.log_mono_right hx hxy
  rcases hl.eq_or_lt with he | hlt
  · have hu : ulp p x = ulp p y := by unfold ulp; rw [he]
    unfold rdPos
    rw [hu]
    have h0 := ulp_pos p y
    apply mul_le_mul_of_nonneg_right _ h0.le
    have : ⌊x / ulp p y + 1 / 2⌋ ≤ ⌊y / ulp p y + 1 / 2⌋ := by
      apply Int.floor_le_floor
      have : x / ulp p y ≤ y / ulp p y := by gcongr
      linarith
    exact_mod_cast this
  · refine (rdPos_range p hp hx).2.trans (le_trans ?_ (rdPos_range p hp hy).1)
    exact zpow_le_zpow_right₀ (by norm_num) (by omega)

/-- multiples of `ulp` stay -/
theorem rdPos_fixed {x : ℝ} (h : ∃ m : ℤ, x = m * ulp p x) : rdPos p x = x := by
  obtain ⟨m, hm⟩ := h
  have hu := ulp_pos p x
  have h1 : x / ulp p x = m := by
    rw [div_eq_iff hu.ne']; exact hm
  unfold rdPos
  rw [h1]
  have : ⌊(m : ℝ) + 1 / 2⌋ = m := by
    rw [Int.floor_eq_iff]
    constructor <;> linarith
  rw [this]
  exact hm.symm

theorem rdPos_idem (hp : 1 ≤ p) {x : ℝ} (hx : 0 < x) : rdPos p (rdPos p x) = rdPos p x := by
  apply rdPos_fixed
  have hr := rdPos_range p hp hx
  have hpos := rdPos_pos p hp hx
  rcases hr.2.eq_or_lt with he | hlt
  · refine ⟨2 ^ (p - 1), ?_⟩
    have hs := ulp_scale p (rdPos p x) hp
    have hl : Int.log 2 (rdPos p x) = Int.log 2 x + 1 := by
      rw [he]
      have := Int.log_zpow (R := ℝ) (b := 2) (by norm_num) (Int.log 2 x + 1)
      exact_mod_cast this
    push_cast
    rw [← hs, hl]
    exact he
  · have hl : Int.log 2 (rdPos p x) = Int.log 2 x := by
      apply le_antisymm
      · rw [← Int.lt_add_one_iff]
        have h1 := log_le hpos
        have h2 := lt_of_le_of_lt h1 hlt
        exact (zpow_lt_zpow_iff_right₀ (by norm_num)).mp h2
      · have h2 := lt_of_le_of_lt hr.1 (lt_log (x := rdPos p x))
        have := (zpow_lt_zpow_iff_right₀ (show (1 : ℝ) < 2 by norm_num)).mp h2
        omega
    have hu : ulp p (rdPos p x) = ulp p x := by unfold ulp; rw [hl]
    rw [hu]
    exact ⟨_, rfl⟩

theorem rdPos_close (hp : 1 ≤ p) {x : ℝ} (hx : 0 < x) : |rdPos p x - x| ≤ (1 / 2) ^ p * x := by
  have hu := ulp_pos p x
  have hs := ulp_scale p x hp
  have h1 := log_le hx
  rw [hs] at h1
  have h2 : |rdPos p x - x| ≤ ulp p x / 2 := by
    have e : rdPos p x - x = (⌊x / ulp p x + 1 / 2⌋ - x / ulp p x) * ulp p x := by
      unfold rdPos
      field_simp
    rw [e, abs_mul, abs_of_pos hu]
    have : |(⌊x / ulp p x + 1 / 2⌋ : ℝ) - x / ulp p x| ≤ 1 / 2 := by
      rw [abs_le]
      have a := Int.floor_le (x / ulp p x + 1 / 2)
      have b := Int.lt_floor_add_one (x / ulp p x + 1 / 2)
      constructor <;> linarith
    nlinarith
  refine h2.trans ?_
  have e2 : ((1 : ℝ) / 2) ^ p * (2 ^ (p - 1) * ulp p x) = ulp p x / 2 := by
    obtain ⟨q, rfl⟩ : ∃ q, p = q + 1 := ⟨p - 1, by omega⟩
    rw [Nat.add_sub_cancel, pow_succ, div_pow, one_pow]
    field_simp
  rw [← e2]
  exact mul_le_mul_of_nonneg_left h1 (by positivity)

theorem rdPos_nat (hp : 1 ≤ p) {n : ℕ} (hn : 0 < n) (hl : n ≤ 2 ^ p) : rdPos p (n : ℝ) = n := by
  apply rdPos_fixed
  have hx : (0 : ℝ) < n := by exact_mod_cast hn
  have hs := ulp_scale p (n : ℝ) hp
  rcases hl.eq_or_lt with he | hlt
  · refine ⟨2 ^ (p - 1), ?_⟩
    push_cast
    rw [← hs]
    have : Int.log 2 (n : ℝ) = p := by
      rw [he]
      have := Int.log_zpow (R := ℝ) (b := 2) (by norm_num) (p : ℤ)
      rw [zpow_natCast] at this
      push_cast at this ⊢
      exact this
    rw [this, he, zpow_natCast]
    push_cast
    rfl
  · have h1 := log_le hx
    have hlog : Int.log 2 (n : ℝ) < p := by
      have h2 : (2 : ℝ) ^ (Int.log 2 (n : ℝ)) < 2 ^ (p : ℤ) := by
        refine lt_of_le_of_lt h1 ?_
        rw [zpow_natCast]
        exact_mod_cast hlt
      exact (zpow_lt_zpow_iff_right₀ (by norm_num)).mp h2
    obtain ⟨k, hk⟩ : ∃ k : ℕ, (k : ℤ) = p - 1 - Int.log 2 (n : ℝ) := ⟨(p - 1 - Int.log 2 (n : ℝ)).toNat, by omega⟩
    refine ⟨n * 2 ^ k, ?_⟩
    have hu : ulp p (n : ℝ) = (2 ^ k : ℝ)⁻¹ := by
      unfold ulp
      rw [← zpow_natCast, ← zpow_neg, hk]
      congr 1
      ring
    rw [hu]
    push_cast
    rw [mul_assoc, mul_inv_cancel₀ (by positivity), mul_one]

theorem rd_of_pos {x : ℝ} (h : 0 < x) : rd p x = rdPos p x := by simp [rd, h]
theorem rd_of_neg {x : ℝ} (h : x < 0) : rd p x = -rdPos p (-x) := by simp [rd, h, not_lt.mpr h.le]
theorem rd_zero : rd p 0 = 0 := by simp [rd]

theorem rd_neg (x : ℝ) : rd p (-x) = -rd p x := by
  rcases lt_trichotomy x 0 with h | h | h
  · rw [rd_of_pos p (by linarith : 0 < -x), rd_of_neg p h, neg_neg]
  · subst h; simp [rd]
  · rw [rd_of_neg p (by linarith : -x < 0), rd_of_pos p h, neg_neg]

/-- The value of the rounding: `x` lies within half a unit of the floating point number `m * 2 ^ e`. -/
theorem rd_eq (hp : 1 ≤ p) {x : ℝ} {m e : ℤ} (h1 : (2 : ℝ) ^ (p - 1) * 2 ^ e ≤ x) (h2 : x < (2 : ℝ) ^ p * 2 ^ e)
    (h3 : ((m : ℝ) - 1 / 2) * 2 ^ e ≤ x) (h4 : x < ((m : ℝ) + 1 / 2) * 2 ^ e) : rd p x = m * 2 ^ e := by
  have he : (0 : ℝ) < 2 ^ e := zpow_pos (by norm_num) _
  have hx : 0 < x := lt_of_lt_of_le (by positivity) h1
  have hl : Int.log 2 x = e + (p - 1) := by
    apply le_antisymm
    · have h : x < (2 : ℝ) ^ (e + p) := by
        rw [zpow_add₀ (by norm_num), zpow_natCast, mul_comm]; exact h2
      have h' := (Int.lt_zpow_iff_log_lt (R := ℝ) (b := 2) (by norm_num) hx).1 (by exact_mod_cast h)
      omega
    · refine (Int.zpow_le_iff_le_log (R := ℝ) (b := 2) (by norm_num) hx).1 ?_
      have e1 : ((2 : ℕ) : ℝ) ^ (e + ((p : ℤ) - 1)) = (2 : ℝ) ^ (p - 1) * 2 ^ e := by
        push_cast
        rw [zpow_add₀ (by norm_num), mul_comm, ← zpow_natCast]
        congr 2
        omega
      rw [e1]; exact h1
  have hu : ulp p x = 2 ^ e := by
    unfold ulp; rw [hl]; congr 1; ring
  rw [rd_of_pos p hx]
  unfold rdPos
  rw [hu]
  congr 1
  have : ⌊x / 2 ^ e + 1 / 2⌋ = m := by
    rw [Int.floor_eq_iff]
    constructor
    · have : (m : ℝ) - 1 / 2 ≤ x / 2 ^ e := by rw [le_div_iff₀ he]; exact h3
      linarith
    · have : x / 2 ^ e < (m : ℝ) + 1 / 2 := by rw [div_lt_iff₀ he]; exact h4
      linarith
  rw [this]

/-- Rounding commutes with doubling. -/
theorem rd_double (x : ℝ) : rd p (2 * x) = 2 * rd p x := by
  have key : ∀ y : ℝ, 0 < y → rdPos p (2 * y) = 2 * rdPos p y := by
    intro y hy
    have hl : Int.log 2 (2 * y) = Int.log 2 y + 1 := by
      have h2y : 0 < 2 * y := by linarith
      have a1 := log_le hy
      have a2 := lt_log (x := y)
      apply le_antisymm
      · have : 2 * y < (2 : ℝ) ^ (Int.log 2 y + 1 + 1) := by
          rw [zpow_add₀ (by norm_num) (Int.log 2 y + 1), zpow_one]; linarith
        have := (Int.lt_zpow_iff_log_lt (R := ℝ) (b := 2) (by norm_num) h2y).1 (by exact_mod_cast this)
        omega
      · refine (Int.zpow_le_iff_le_log (R := ℝ) (b := 2) (by norm_num) h2y).1 ?_
        push_cast
        rw [zpow_add₀ (by norm_num), zpow_one]; linarith
    have hu : ulp p (2 * y) = 2 * ulp p y := by
      unfold ulp
      rw [hl, show Int.log 2 y + 1 - (p : ℤ) + 1 = (Int.log 2 y - p + 1) + 1 by ring, zpow_add₀ (by norm_num), zpow_one, mul_comm]
    unfold rdPos
    rw [hu, mul_div_mul_left _ _ (by norm_num : (2 : ℝ) ≠ 0)]
    ring
  rcases lt_trichotomy x 0 with h | h | h
  · rw [rd_of_neg p h, rd_of_neg p (by linarith), show -(2 * x) = 2 * -x by ring, key _ (by linarith)]; ring
  · subst h; simp [rd_zero]
  · rw [rd_of_pos p h, rd_of_pos p (by linarith), key _ h]

end Binary

/-- Binary floating point arithmetic with `p` bits (binary64: `p = 53`) and unbounded exponent, rounding to nearest. -/
noncomputable def Rounding.binary (p : ℕ) (hp : 1 ≤ p) : Rounding where
  rd := Binary.rd p
  mono := by
    intro x y hxy
    rcases lt_trichotomy x 0 with hx | hx | hx
    · rcases lt_trichotomy y 0 with hy | hy | hy
      · rw [Binary.rd_of_neg p hx, Binary.rd_of_neg p hy, neg_le_neg_iff]
        exact Binary.rdPos_mono p hp (by linarith) (by linarith)
      · rw [Binary.rd_of_neg p hx, hy, Binary.rd_zero]
        have := Binary.rdPos_pos p hp (show 0 < -x by linarith)
        linarith
      · rw [Binary.rd_of_neg p hx, Binary.rd_of_pos p hy]
        have := Binary.rdPos_pos p hp (show 0 < -x by linarith)
        have := Binary.rdPos_pos p hp hy
        linarith
    · subst hx
      rw [Binary.rd_zero]
      rcases hxy.eq_or_lt with hy | hy
      · rw [← hy, Binary.rd_zero]
      · rw [Binary.rd_of_pos p hy]
        exact (Binary.rdPos_pos p hp hy).le
    · rw [Binary.rd_of_pos p hx, Binary.rd_of_pos p (by linarith)]
      exact Binary.rdPos_mono p hp hx hxy
  idem := by
    intro x
    rcases lt_trichotomy x 0 with hx | hx | hx
    · rw [Binary.rd_of_neg p hx, Binary.rd_neg, Binary.rd_of_pos p (Binary.rdPos_pos p hp (by linarith)), Binary.rdPos_idem p hp (by linarith)]
    · subst hx; rw [Binary.rd_zero, Binary.rd_zero]
    · rw [Binary.rd_of_pos p hx, Binary.rd_of_pos p (Binary.rdPos_pos p hp hx), Binary.rdPos_idem p hp hx]
  neg := Binary.rd_neg p
  u := (1 / 2) ^ p
  u_nonneg := by positivity
  u_lt_one := by
    apply pow_lt_one₀ <;> norm_num
    omega
  close := by
    intro x
    rcases lt_trichotomy x 0 with hx | hx | hx
    · have := Binary.rdPos_close p hp (show 0 < -x by linarith)
      rw [Binary.rd_of_neg p hx, abs_of_neg hx]
      rw [abs_sub_comm] at this
      have e : -Binary.rdPos p (-x) - x = -x - Binary.rdPos p (-x) := by ring
      rw [e]
      exact this
    · subst hx; rw [Binary.rd_zero]; simp
    · rw [Binary.rd_of_pos p hx, abs_of_pos hx]
      exact Binary.rdPos_close p hp hx
  limit := 2 ^ p
  limit_pos := Nat.one_le_two_pow
  nat := by
    intro n hn
    rcases Nat.eq_zero_or_pos n with h | h
    · subst h; rw [Nat.cast_zero]; exact Binary.rd_zero p
    · rw [Binary.rd_of_pos p (by exact_mod_cast h)]
      exact Binary.rdPos_nat p hp h hn

/-- Exact arithmetic meets the contract, too. -/
def Rounding.exact (n : ℕ) (hn : 1 ≤ n) : Rounding where
  rd x := x
  mono _ _ h := h
  idem _ := rfl
  neg _ := rfl
  u := 0
  u_nonneg := le_rfl
  u_lt_one := one_pos
  close x := by simp
  limit := n
  limit_pos := hn
  nat _ _ := rfl

end Pyirf.Np
