import Verif.Units.UtilModel
import Verif.Units.BenchProps
import Verif.Units.SpectralProps

/-!
# C157, C158: units in the binning helpers and in the angle functions
-/
set_option linter.unusedSectionVars false
set_option linter.unusedSimpArgs false

namespace Pyirf.Units
open Pyirf Pyirf.Np Pyirf.Io Pyirf.Utils Pyirf.Binning Pyirf.Coords Pyirf.Cuts

/-! ## Specification -/

/-- The numbers in SI units (radian for angles). -/
noncomputable def siL (x : Q (List (FV ℝ))) : List (FV ℝ) := x.val.map (si x.unit)
/-- the same for rows of numbers -/
noncomputable def siLL (x : Q (List (List (FV ℝ)))) : List (List (FV ℝ)) := x.val.map (List.map (si x.unit))
/-- the same for one finite number -/
noncomputable def siR (x : Q ℝ) : ℝ := x.unit.scale * x.val

/-- Two edges agree up to `atol` and a relative difference of 1e-5; infinities agree if they are equal, NaN never. -/
def CloseAt (atol : ℝ) : FV ℝ → FV ℝ → Prop
  | .fin a, .fin b => |a - b| ≤ atol + 1 / 10 ^ 5 * |b|
  | .pinf, .pinf => True
  | .ninf, .ninf => True
  | _, _ => False

/-- In every pair of rows each lower edge but the first agrees with the upper edge of the bin before. -/
def RowsFit (atol : ℝ) (lo hi : List (List (FV ℝ))) : Prop :=
  ∀ r ∈ lo.zip hi, ∀ p ∈ r.1.tail.zip r.2.dropLast, CloseAt atol p.1 p.2

/-! ## C157 -/

/-- **C157** The centers of bins are the same quantities in any unit, given in the unit of the edges. -/
theorem C157_bin_center (edges : Q (List (FV ℝ))) (h : 0 < edges.unit.scale) : (binCenterQ edges).unit = edges.unit ∧ siL (binCenterQ edges) = binCenter (siL edges) :=
  ⟨rfl, (binCenter_scale h edges.val).symm⟩

/-- **C157** `split_bin_lo_hi` splits the quantities and keeps the unit. -/
theorem C157_split (bins : Q (List (List (FV ℝ)))) :
    (splitBinLoHiQ bins).1.unit = bins.unit ∧ (splitBinLoHiQ bins).2.unit = bins.unit ∧ (siLL (splitBinLoHiQ bins).1, siLL (splitBinLoHiQ bins).2) = splitBinLoHi (siLL bins) := by
  refine ⟨rfl, rfl, ?_⟩
  unfold splitBinLoHiQ splitBinLoHi siLL
  simp only [List.map_map]
  congr 1 <;> exact List.map_congr_left fun r _ => by simp

theorem si_zero (un : PhysUnit ℝ) : si un (.fin 0) = .fin 0 := by unfold si; rw [FV.fin_mul_fin, mul_zero]

/-- **C157** `add_overflow_bins` adds the same quantities in any unit and keeps the unit. -/
theorem C157_add_overflow (bins : Q (List (FV ℝ))) (h : 0 < bins.unit.scale) (positive : Bool) :
    (addOverflowBinsQ bins positive).map siL = addOverflowBins (siL bins) positive ∧ ∀ q, addOverflowBinsQ bins positive = .ok q → q.unit = bins.unit := by
  obtain ⟨un, l⟩ := bins
  have hp : si un .pinf = .pinf := scale_pinf h
  have hl : si un (if positive then .fin 0 else .ninf) = if positive then .fin 0 else .ninf := by
    cases positive
    · exact scale_ninf h
    · exact si_zero un
  have hgt : ∀ x, FV.gt (si un x) (if positive then .fin 0 else .ninf) = FV.gt x (if positive then .fin 0 else .ninf) := by
    intro x
    have := lt_scale h (if positive then .fin 0 else .ninf) x
    rw [show FV.fin (⟨un, l⟩ : Q (List (FV ℝ))).unit.scale * (if positive then .fin 0 else .ninf) = _ from hl] at this
    exact this
  have hlt : ∀ x, FV.lt (si un x) .pinf = FV.lt x .pinf := by
    intro x
    rw [← hp]
    exact (lt_scale h _ _).trans (by rw [hp])
  cases l with
  | nil => exact ⟨rfl, fun q h => by cases h⟩
  | cons b0 rest =>
    refine ⟨?_, fun q h => by injection h with h; rw [← h]⟩
    unfold addOverflowBinsQ addOverflowBins siL
    simp only [List.map_cons, Except.map]
    congr 1
    rw [hgt]
    have key : ∀ l : List (FV ℝ), (if ((l.map (si un)).getLast?.map fun e => FV.lt e .pinf) = some true then l.map (si un) ++ [.pinf] else l.map (si un)) =
        (if (l.getLast?.map fun e => FV.lt e .pinf) = some true then l ++ [.pinf] else l).map (si un) := by
      intro l
      rw [List.getLast?_map, Option.map_map]
      have : ((fun e => FV.lt e .pinf) ∘ si un) = fun e => FV.lt e .pinf := funext hlt
      rw [this]
      split
      · rw [List.map_append, List.map_cons, List.map_nil, hp]
      · rfl
    by_cases hb : FV.gt b0 (if positive then .fin 0 else .ninf) = true
    · simp only [if_pos hb]
      rw [← key]
      simp only [List.map_cons, hl]
    · simp only [if_neg hb]
      rw [← key]
      simp only [List.map_cons]

theorem createBinsPerDecade_scale {k : ℝ} (hk : 0 < k) {a b : ℝ} (ha : 0 < a) (hb : 0 < b) (n : ℕ) :
    createBinsPerDecade (k * a) (k * b) n = (createBinsPerDecade a b n).map (k * ·) := by
  unfold createBinsPerDecade arange
  simp only [List.map_map]
  rw [Real.logb_mul hk.ne' ha.ne', Real.logb_mul hk.ne' hb.ne']
  have e : Real.logb 10 k + Real.logb 10 b + 1 / (n : ℝ) / 10000 - (Real.logb 10 k + Real.logb 10 a) = Real.logb 10 b + 1 / (n : ℝ) / 10000 - Real.logb 10 a := by ring
  rw [e]
  apply List.map_congr_left
  intro j _
  simp only [Function.comp]
  rw [add_assoc, Real.rpow_add (by norm_num), Real.rpow_logb (by norm_num) (by norm_num) hk]

/-- **C157** `create_bins_per_decade` gives the same energies in any units of `e_min` and `e_max`, in the unit of `e_min`; UnitsError for something that is no energy. -/
theorem C157_bins_per_decade (c : Consts ℝ) (eMin eMax : Q ℝ) (h1 : 0 < eMin.unit.scale) (h2 : 0 < eMax.unit.scale) (p1 : 0 < eMin.val) (p2 : 0 < eMax.val) (n : ℕ) :
    (eMin.unit.dim = dimEnergy ∧ eMax.unit.dim = dimEnergy →
      ∃ q, createBinsPerDecadeQ c eMin eMax n = .ok q ∧ q.unit = eMin.unit ∧ q.val.map (q.unit.scale * ·) = createBinsPerDecade (siR eMin) (siR eMax) n) ∧
    (¬ (eMin.unit.dim = dimEnergy ∧ eMax.unit.dim = dimEnergy) → createBinsPerDecadeQ c eMin eMax n = .error .unitsError) := by
  unfold createBinsPerDecadeQ
  rw [checkDim_bind, checkDim_bind]
  simp only [show (teV c).dim = dimEnergy from rfl]
  constructor
  · rintro ⟨d1, d2⟩
    rw [if_pos d1, if_pos d2]
    refine ⟨_, rfl, rfl, ?_⟩
    dsimp only
    rw [← createBinsPerDecade_scale h1 p1]
    · unfold siR
      congr 1
      unfold Q.num
      field_simp
    · unfold Q.num
      exact mul_pos (div_pos h2 h1) p2
  · intro hn
    by_cases d1 : eMin.unit.dim = dimEnergy
    · rw [if_pos d1, if_neg fun d2 => hn ⟨d1, d2⟩]
    · rw [if_neg d1]

theorem isclose_iff {k : ℝ} (hk : 0 < k) (a b : FV ℝ) : Np.isclose (1 / 10 ^ 5) (1 / 10 ^ 8) a b = true ↔ CloseAt (1 / 10 ^ 8 * k) (FV.fin k * a) (FV.fin k * b) := by
  cases a with
  | fin a =>
    cases b with
    | fin b =>
      rw [FV.fin_mul_fin, FV.fin_mul_fin]
      show decide (|a - b| ≤ 1 / 10 ^ 8 + 1 / 10 ^ 5 * |b|) = true ↔ |k * a - k * b| ≤ 1 / 10 ^ 8 * k + 1 / 10 ^ 5 * |k * b|
      rw [decide_eq_true_eq, ← mul_sub, abs_mul, abs_mul, abs_of_pos hk, show 1 / 10 ^ 8 * k + 1 / 10 ^ 5 * (k * |b|) = k * (1 / 10 ^ 8 + 1 / 10 ^ 5 * |b|) by ring]
      exact (mul_le_mul_iff_right₀ hk).symm
    | pinf => simp [scale_pinf hk, Np.isclose, CloseAt, FV.beq, FV.le]
    | ninf => simp [scale_ninf hk, Np.isclose, CloseAt, FV.beq, FV.le]
    | nan => simp [Np.isclose, CloseAt, FV.beq, FV.le]
  | pinf =>
    cases b <;> simp [scale_pinf hk, scale_ninf hk, Np.isclose, CloseAt, FV.beq, FV.le]
  | ninf =>
    cases b <;> simp [scale_pinf hk, scale_ninf hk, Np.isclose, CloseAt, FV.beq, FV.le]
  | nan =>
    cases b <;> simp [scale_pinf hk, scale_ninf hk, Np.isclose, CloseAt, FV.beq, FV.le]

theorem zipWith_eq {α β γ : Type} (f : α → β → γ) (a : List α) (b : List β) : List.zipWith f a b = (a.zip b).map fun p => f p.1 p.2 := by
  induction a generalizing b with
  | nil => simp
  | cons x a ih => cases b with
    | nil => simp
    | cons y b => simp [ih]

theorem allclose_iff (a b : List (FV ℝ)) : Np.allclose (1 / 10 ^ 5) (1 / 10 ^ 8) a b = true ↔ ∀ p ∈ a.zip b, Np.isclose (1 / 10 ^ 5) (1 / 10 ^ 8) p.1 p.2 = true := by
  unfold Np.allclose
  rw [List.all_eq_true, zipWith_eq]
  constructor
  · intro h p hp
    exact h _ (List.mem_map.2 ⟨p, hp, rfl⟩)
  · intro h x hx
    obtain ⟨p, hp, rfl⟩ := List.mem_map.1 hx
    exact h p hp

theorem rowsFit_iff {lo hi : PhysUnit ℝ} (h : 0 < lo.scale) (l r : List (List (FV ℝ))) :
    (List.zipWith (fun l h => Np.allclose (1 / 10 ^ 5) (1 / 10 ^ 8) l.tail h.dropLast) l (r.map (List.map (conv hi lo)))).all id = true ↔
      RowsFit (1 / 10 ^ 8 * lo.scale) (l.map (List.map (si lo))) (r.map (List.map (si hi))) := by
  unfold RowsFit
  rw [List.all_eq_true, List.zipWith_map_right, zipWith_eq, List.zip_map]
  have key : ∀ x : List (FV ℝ) × List (FV ℝ), Np.allclose (1 / 10 ^ 5) (1 / 10 ^ 8) x.1.tail (x.2.map (conv hi lo)).dropLast = true ↔
      ∀ p ∈ (x.1.map (si lo)).tail.zip (x.2.map (si hi)).dropLast, CloseAt (1 / 10 ^ 8 * lo.scale) p.1 p.2 := by
    intro x
    rw [allclose_iff, ← List.map_dropLast, ← List.map_tail, ← List.map_dropLast, List.zip_map_right, List.zip_map]
    constructor
    · intro hx p hp
      obtain ⟨q, hq, rfl⟩ := List.mem_map.1 hp
      have := (isclose_iff h _ _).1 (hx _ (List.mem_map.2 ⟨q, hq, rfl⟩))
      have e : FV.fin lo.scale * conv hi lo q.2 = si hi q.2 := si_conv h q.2
      dsimp only [Prod.map, id] at this ⊢
      rw [e] at this
      exact this
    · intro hx p hp
      obtain ⟨q, hq, rfl⟩ := List.mem_map.1 hp
      refine (isclose_iff h _ _).2 ?_
      have := hx _ (List.mem_map.2 ⟨q, hq, rfl⟩)
      have e : FV.fin lo.scale * conv hi lo q.2 = si hi q.2 := si_conv h q.2
      dsimp only [Prod.map, id] at this ⊢
      rw [e]
      exact this
  constructor
  · intro hx r hr
    obtain ⟨q, hq, rfl⟩ := List.mem_map.1 hr
    exact (key q).1 (hx _ (List.mem_map.2 ⟨q, hq, rfl⟩))
  · intro hx b hb
    obtain ⟨q, hq, rfl⟩ := List.mem_map.1 hb
    exact (key q).2 (hx _ (List.mem_map.2 ⟨q, hq, rfl⟩))

/-- **C157** `join_bin_lo_hi` of Quantities: the edges are compared as quantities, with the absolute tolerance 1e-8 in the unit of `bin_lo`. If they fit, the result has that unit and all lower edges and the
last upper edges; otherwise, ValueError; UnitsError if the edges have different dimensions. -/
theorem C157_join (lo hi : Q (List (List (FV ℝ)))) (h1 : 0 < lo.unit.scale) :
    (hi.unit.dim = lo.unit.dim → RowsFit (1 / 10 ^ 8 * lo.unit.scale) (siLL lo) (siLL hi) →
      ∃ q, joinBinLoHiQ lo hi = .ok q ∧ q.unit = lo.unit ∧ siLL q = List.zipWith (fun l h => l ++ h.getLast?.toList) (siLL lo) (siLL hi)) ∧
    (hi.unit.dim = lo.unit.dim → ¬ RowsFit (1 / 10 ^ 8 * lo.unit.scale) (siLL lo) (siLL hi) → joinBinLoHiQ lo hi = .error .valueError) ∧
    (hi.unit.dim ≠ lo.unit.dim → joinBinLoHiQ lo hi = .error .unitsError) := by
  unfold joinBinLoHiQ
  rw [checkDim_bind]
  unfold joinBinLoHi
  refine ⟨fun hd hf => ?_, fun hd hf => ?_, fun hd => if_neg hd⟩
  · rw [if_pos hd, if_pos ((rowsFit_iff h1 _ _).2 hf)]
    refine ⟨_, rfl, rfl, ?_⟩
    unfold siLL
    dsimp only
    rw [List.zipWith_map_right, List.map_zipWith, List.zipWith_map]
    congr 1
    funext l h
    rw [List.map_append]
    congr 1
    rw [List.getLast?_map, List.getLast?_map]
    cases h.getLast? with
    | none => rfl
    | some x => exact congrArg (fun y => [y]) (si_conv h1 x)
  · rw [if_pos hd, if_neg fun h => hf ((rowsFit_iff h1 _ _).1 h)]
    rfl

/-- a row of finite quantities, given in the unit `un` -/
noncomputable def givenIn (un : PhysUnit ℝ) (rows : List (List ℝ)) : Q (List (List (FV ℝ))) := ⟨un, rows.map (List.map fun x => .fin (x / un.scale))⟩

theorem siLL_givenIn {un : PhysUnit ℝ} (h : 0 < un.scale) (rows : List (List ℝ)) : siLL (givenIn un rows) = rows.map (List.map FV.fin) := by
  unfold siLL givenIn
  rw [List.map_map]
  apply List.map_congr_left
  intro r _
  simp only [Function.comp, List.map_map]
  apply List.map_congr_left
  intro x _
  show FV.fin un.scale * FV.fin (x / un.scale) = FV.fin x
  rw [FV.fin_mul_fin]
  congr 1
  field_simp

/-- **C157** (deviation) In a large enough unit `join_bin_lo_hi` accepts any finite edges, whether they fit or not. -/
theorem C157_join_large_unit (lo hi : List (List ℝ)) : ∃ K : ℝ, ∀ un : PhysUnit ℝ, 0 < un.scale → K ≤ un.scale → ∃ q, joinBinLoHiQ (givenIn un lo) (givenIn un hi) = .ok q := by
  obtain ⟨B, hB⟩ : ∃ B : ℝ, ∀ r ∈ lo.zip hi, ∀ p ∈ r.1.tail.zip r.2.dropLast, |p.1 - p.2| ≤ B := by
    have key : ∀ l : List ℝ, ∃ B : ℝ, ∀ x ∈ l, x ≤ B := fun l => by
      induction l with
      | nil => exact ⟨0, by simp⟩
      | cons a l ih =>
        obtain ⟨B, hB⟩ := ih
        refine ⟨max a B, fun x hx => ?_⟩
        rcases List.mem_cons.1 hx with rfl | hx
        · exact le_max_left _ _
        · exact (hB x hx).trans (le_max_right _ _)
    obtain ⟨B, hB⟩ := key ((lo.zip hi).flatMap fun r => (r.1.tail.zip r.2.dropLast).map fun p => |p.1 - p.2|)
    exact ⟨B, fun r hr p hp => hB _ (List.mem_flatMap.2 ⟨r, hr, List.mem_map.2 ⟨p, hp, rfl⟩⟩)⟩
  refine ⟨10 ^ 8 * B, fun un hu hK => ?_⟩
  obtain ⟨q, hq, -⟩ := (C157_join (givenIn un lo) (givenIn un hi) hu).1 rfl (by
    rw [siLL_givenIn hu, siLL_givenIn hu]
    intro r hr p hp
    rw [List.zip_map] at hr
    obtain ⟨s, hs, rfl⟩ := List.mem_map.1 hr
    dsimp only [Prod.map] at hp
    rw [← List.map_tail, ← List.map_dropLast, List.zip_map] at hp
    obtain ⟨t, ht, rfl⟩ := List.mem_map.1 hp
    show |t.1 - t.2| ≤ 1 / 10 ^ 8 * un.scale + 1 / 10 ^ 5 * |t.2|
    have b := hB s hs t ht
    have := abs_nonneg t.2
    linarith)
  exact ⟨q, hq⟩

/-- **C157** (deviation) Energies that `join_bin_lo_hi` rejects in GeV and accepts in J: bins from 10 and 20 GeV, up to 15 and 30 GeV. -/
theorem C157_join_joule (gev joule : PhysUnit ℝ) (h1 : gev.scale = 1602176634 / 10 ^ 19) (h2 : joule.scale = 1) :
    joinBinLoHiQ (givenIn gev [[10 * gev.scale, 20 * gev.scale]]) (givenIn gev [[15 * gev.scale, 30 * gev.scale]]) = .error .valueError ∧
    ∃ q, joinBinLoHiQ (givenIn joule [[10 * gev.scale, 20 * gev.scale]]) (givenIn joule [[15 * gev.scale, 30 * gev.scale]]) = .ok q := by
  have p1 : 0 < gev.scale := by rw [h1]; norm_num
  have p2 : 0 < joule.scale := by rw [h2]; norm_num
  constructor
  · refine (C157_join (givenIn gev [[10 * gev.scale, 20 * gev.scale]]) (givenIn gev [[15 * gev.scale, 30 * gev.scale]]) p1).2.1 rfl ?_
    rw [siLL_givenIn p1, siLL_givenIn p1]
    intro h
    have := h ([.fin (10 * gev.scale), .fin (20 * gev.scale)], [.fin (15 * gev.scale), .fin (30 * gev.scale)]) (by simp) (.fin (20 * gev.scale), .fin (15 * gev.scale)) (by simp)
    have hh : |20 * gev.scale - 15 * gev.scale| ≤ 1 / 10 ^ 8 * gev.scale + 1 / 10 ^ 5 * |15 * gev.scale| := this
    rw [show 20 * gev.scale - 15 * gev.scale = 5 * gev.scale by ring, abs_of_pos (by positivity), abs_of_pos (by positivity)] at hh
    linarith
  · have := (C157_join (givenIn joule [[10 * gev.scale, 20 * gev.scale]]) (givenIn joule [[15 * gev.scale, 30 * gev.scale]]) p2).1 rfl (by
      rw [siLL_givenIn p2, siLL_givenIn p2]
      intro r hr p hp
      simp only [List.map_cons, List.map_nil, List.zip_cons_cons, List.zip_nil_right, List.mem_cons, List.not_mem_nil, or_false] at hr
      subst hr
      simp only [List.tail_cons, List.dropLast, List.zip_cons_cons, List.zip_nil_right, List.mem_cons, List.not_mem_nil, or_false] at hp
      subst hp
      show |20 * gev.scale - 15 * gev.scale| ≤ 1 / 10 ^ 8 * joule.scale + 1 / 10 ^ 5 * |15 * gev.scale|
      rw [show 20 * gev.scale - 15 * gev.scale = 5 * gev.scale by ring, abs_of_pos (by positivity), h2, h1]
      have := abs_nonneg (15 * (1602176634 / 10 ^ 19 : ℝ))
      have e : (5 : ℝ) * (1602176634 / 10 ^ 19) ≤ 1 / 10 ^ 8 * 1 := by norm_num
      linarith)
    obtain ⟨q, hq, -⟩ := this
    exact ⟨q, hq⟩

/-! ## C158 -/

/-- All are angles. -/
def Angles (a b c d : Q ℝ) : Prop := a.unit.dim = dimAngle ∧ b.unit.dim = dimAngle ∧ c.unit.dim = dimAngle ∧ d.unit.dim = dimAngle

/-- An angle given in degrees that is `x` radian. -/
def IsDegrees (c : Consts ℝ) (x : ℝ) (q : Q ℝ) : Prop := q.unit = degree c ∧ siR q = x

theorem inDegree_is {c : Consts ℝ} (hc : 0 < c.deg) (x : ℝ) : IsDegrees c x (inDegree c x) := by
  refine ⟨rfl, ?_⟩
  unfold siR inDegree Q.num
  show c.deg * (1 / c.deg * x) = x
  field_simp

theorem num_radian (x : Q ℝ) : x.num radian = siR x := by
  unfold Q.num siR
  show x.unit.scale / 1 * x.val = _
  rw [div_one]

theorem diff_radian {a b : Q ℝ} (hb : 0 < b.unit.scale) : (⟨b.unit, b.val - a.num b.unit⟩ : Q ℝ).num radian = siR b - siR a := by
  rw [num_radian]
  unfold siR Q.num
  field_simp

theorem checkDims4 {α : Type} (a b d e : Q ℝ) (x : Except Err α) :
    (checkDim a.unit b.unit >>= fun _ => checkDim b.unit radian >>= fun _ => checkDim d.unit radian >>= fun _ => checkDim e.unit radian >>= fun _ => x) =
      open Classical in if Angles a b d e then x else .error .unitsError := by
  rw [checkDim_bind, checkDim_bind, checkDim_bind, checkDim_bind]
  simp only [show (radian : PhysUnit ℝ).dim = dimAngle from rfl]
  unfold Angles
  by_cases h1 : a.unit.dim = b.unit.dim
  · rw [if_pos h1, h1]
    by_cases h2 : b.unit.dim = dimAngle
    · by_cases h3 : d.unit.dim = dimAngle
      · by_cases h4 : e.unit.dim = dimAngle
        · simp [h2, h3, h4]
        · simp [h2, h3, h4]
      · simp [h2, h3]
    · simp [h2]
  · rw [if_neg h1, if_neg]
    rintro ⟨e1, e2, -⟩
    exact h1 (e1.trans e2.symm)

theorem separationQ_eq (a b d e : Q ℝ) (hd : 0 < d.unit.scale) :
    (Angles a b d e → angularSeparationQ a b d e = .ok (angularSeparation (siR a) (siR b) (siR d) (siR e))) ∧ (¬ Angles a b d e → angularSeparationQ a b d e = .error .unitsError) := by
  have key := checkDims4 a d b e (.ok (angularSeparation (siR a) (siR b) (siR d) (siR e)))
  have e1 : angularSeparationQ a b d e = (checkDim a.unit d.unit >>= fun _ => checkDim d.unit radian >>= fun _ => checkDim b.unit radian >>= fun _ => checkDim e.unit radian >>= fun _ =>
      .ok (angularSeparation (siR a) (siR b) (siR d) (siR e))) := by
    unfold angularSeparationQ angularSeparation
    simp only [diff_radian hd, num_radian]
  rw [e1, key]
  have hiff : Angles a d b e ↔ Angles a b d e := by unfold Angles; tauto
  exact ⟨fun h => if_pos (hiff.2 h), fun h => if_neg fun h' => h (hiff.1 h')⟩

theorem positionQ_eq (a b d e : Q ℝ) (hd : 0 < d.unit.scale) :
    (Angles a b d e → positionAngleQ a b d e = .ok (positionAngle (siR a) (siR b) (siR d) (siR e))) ∧ (¬ Angles a b d e → positionAngleQ a b d e = .error .unitsError) := by
  have key := checkDims4 a d b e (.ok (positionAngle (siR a) (siR b) (siR d) (siR e)))
  have e1 : positionAngleQ a b d e = (checkDim a.unit d.unit >>= fun _ => checkDim d.unit radian >>= fun _ => checkDim b.unit radian >>= fun _ => checkDim e.unit radian >>= fun _ =>
      .ok (positionAngle (siR a) (siR b) (siR d) (siR e))) := by
    unfold positionAngleQ positionAngle
    simp only [diff_radian hd, num_radian]
  rw [e1, key]
  have hiff : Angles a d b e ↔ Angles a b d e := by unfold Angles; tauto
  exact ⟨fun h => if_pos (hiff.2 h), fun h => if_neg fun h' => h (hiff.1 h')⟩

/-- **C158** `cone_solid_angle` of the angle in radian; UnitsError for something that is no angle. -/
theorem C158_cone (x : Q ℝ) : (x.unit.dim = dimAngle → coneSolidAngleQ x = .ok (coneSolidAngle (siR x))) ∧ (x.unit.dim ≠ dimAngle → coneSolidAngleQ x = .error .unitsError) := by
  unfold coneSolidAngleQ
  rw [checkDim_bind, num_radian]
  exact ⟨fun h => if_pos h, fun h => if_neg h⟩

/-- **C158** `rectangle_solid_angle` of the edges in radian. -/
theorem C158_rectangle (lonLow lonHigh latLow latHigh : Q ℝ) (h : 0 < lonHigh.unit.scale) :
    (Angles lonLow lonHigh latLow latHigh → rectangleSolidAngleQ lonLow lonHigh latLow latHigh = .ok (rectangleSolidAngle (siR lonLow) (siR lonHigh) (siR latLow) (siR latHigh))) ∧
    (¬ Angles lonLow lonHigh latLow latHigh → rectangleSolidAngleQ lonLow lonHigh latLow latHigh = .error .unitsError) := by
  have key := checkDims4 lonLow lonHigh latHigh latLow (.ok (rectangleSolidAngle (siR lonLow) (siR lonHigh) (siR latLow) (siR latHigh)))
  have e1 : rectangleSolidAngleQ lonLow lonHigh latLow latHigh = (checkDim lonLow.unit lonHigh.unit >>= fun _ => checkDim lonHigh.unit radian >>= fun _ => checkDim latHigh.unit radian >>= fun _ =>
      checkDim latLow.unit radian >>= fun _ => .ok (rectangleSolidAngle (siR lonLow) (siR lonHigh) (siR latLow) (siR latHigh))) := by
    unfold rectangleSolidAngleQ rectangleSolidAngle
    simp only [diff_radian h, num_radian]
  rw [e1, key]
  have hiff : Angles lonLow lonHigh latHigh latLow ↔ Angles lonLow lonHigh latLow latHigh := by unfold Angles; tauto
  exact ⟨fun h => if_pos (hiff.2 h), fun h => if_neg fun h' => h (hiff.1 h')⟩

/-- **C158** `calculate_theta`: the separation of the directions in radian, given in degrees. -/
theorem C158_theta (c : Consts ℝ) (hc : 0 < c.deg) (recoAz recoAlt sourceAz sourceAlt : Q ℝ) (h : 0 < recoAz.unit.scale) :
    (Angles recoAz recoAlt sourceAz sourceAlt → ∃ q, calculateThetaQ c recoAz recoAlt sourceAz sourceAlt = .ok q ∧ IsDegrees c (calculateTheta (siR recoAz) (siR recoAlt) (siR sourceAz) (siR sourceAlt)) q) ∧
    (¬ Angles recoAz recoAlt sourceAz sourceAlt → calculateThetaQ c recoAz recoAlt sourceAz sourceAlt = .error .unitsError) := by
  unfold calculateThetaQ
  rw [checkDim_bind, checkDim_bind]
  simp only [show (degree c).dim = dimAngle from rfl]
  obtain ⟨s1, s2⟩ := separationQ_eq sourceAz sourceAlt recoAz recoAlt h
  constructor
  · rintro ⟨d1, d2, d3, d4⟩
    rw [if_pos d3, if_pos d4, s1 ⟨d3, d4, d1, d2⟩]
    exact ⟨_, rfl, inDegree_is hc _⟩
  · intro hn
    by_cases d3 : sourceAz.unit.dim = dimAngle
    · by_cases d4 : sourceAlt.unit.dim = dimAngle
      · rw [if_pos d3, if_pos d4, s2 fun ⟨_, _, d1, d2⟩ => hn ⟨d1, d2, d3, d4⟩]
        rfl
      · rw [if_pos d3, if_neg d4]
    · rw [if_neg d3]

/-- **C158** `calculate_source_fov_offset`: the separation of the directions in radian, given in degrees. -/
theorem C158_fov_offset (c : Consts ℝ) (hc : 0 < c.deg) (az alt pointingAz pointingAlt : Q ℝ) (h : 0 < pointingAz.unit.scale) :
    (Angles az alt pointingAz pointingAlt → ∃ q, calculateSourceFovOffsetQ c az alt pointingAz pointingAlt = .ok q ∧
      IsDegrees c (calculateSourceFovOffset (siR az) (siR alt) (siR pointingAz) (siR pointingAlt)) q) ∧
    (¬ Angles az alt pointingAz pointingAlt → calculateSourceFovOffsetQ c az alt pointingAz pointingAlt = .error .unitsError) := by
  unfold calculateSourceFovOffsetQ
  obtain ⟨s1, s2⟩ := separationQ_eq az alt pointingAz pointingAlt h
  constructor
  · intro hd
    rw [s1 hd]
    exact ⟨_, rfl, inDegree_is hc _⟩
  · intro hn
    rw [s2 hn]
    rfl

/-- **C158** `gadf_fov_coords_theta_phi`: the coordinates of the directions in radian, given in degrees. -/
theorem C158_theta_phi (c : Consts ℝ) (hc : 0 < c.deg) (lon lat pointingLon pointingLat : Q ℝ) (h : 0 < lon.unit.scale) :
    (Angles lon lat pointingLon pointingLat → ∃ t p, gadfFovCoordsThetaPhiQ c lon lat pointingLon pointingLat = .ok (t, p) ∧
      IsDegrees c (gadfFovCoordsThetaPhi (siR lon) (siR lat) (siR pointingLon) (siR pointingLat)).1 t ∧ IsDegrees c (gadfFovCoordsThetaPhi (siR lon) (siR lat) (siR pointingLon) (siR pointingLat)).2 p) ∧
    (¬ Angles lon lat pointingLon pointingLat → gadfFovCoordsThetaPhiQ c lon lat pointingLon pointingLat = .error .unitsError) := by
  unfold gadfFovCoordsThetaPhiQ
  obtain ⟨s1, s2⟩ := separationQ_eq pointingLon pointingLat lon lat h
  obtain ⟨p1, p2⟩ := positionQ_eq pointingLon pointingLat lon lat h
  have hiff : Angles pointingLon pointingLat lon lat ↔ Angles lon lat pointingLon pointingLat := by unfold Angles; tauto
  constructor
  · intro hd
    rw [s1 (hiff.2 hd), p1 (hiff.2 hd)]
    exact ⟨_, _, rfl, inDegree_is hc _, inDegree_is hc _⟩
  · intro hn
    rw [s2 fun h => hn (hiff.1 h)]
    rfl

/-- **C158** `calculate_source_fov_position_angle`. -/
theorem C158_position_angle (c : Consts ℝ) (hc : 0 < c.deg) (az alt pointingAz pointingAlt : Q ℝ) (h : 0 < az.unit.scale) :
    (Angles az alt pointingAz pointingAlt → ∃ q, calculateSourceFovPositionAngleQ c az alt pointingAz pointingAlt = .ok q ∧
      IsDegrees c (calculateSourceFovPositionAngle (siR az) (siR alt) (siR pointingAz) (siR pointingAlt)) q) ∧
    (¬ Angles az alt pointingAz pointingAlt → calculateSourceFovPositionAngleQ c az alt pointingAz pointingAlt = .error .unitsError) := by
  unfold calculateSourceFovPositionAngleQ
  obtain ⟨s1, s2⟩ := C158_theta_phi c hc az alt pointingAz pointingAlt h
  constructor
  · intro hd
    obtain ⟨t, p, e, -, hp⟩ := s1 hd
    rw [e]
    exact ⟨_, rfl, hp⟩
  · intro hn
    rw [s2 hn]
    rfl

/-- **C158** `calculate_source_fov_lonlat`: the coordinates of the directions in radian, given in degrees, or the ValueError for latitudes beyond 90 degrees. -/
theorem C158_lonlat (c : Consts ℝ) (hc : 0 < c.deg) (az alt pointingAz pointingAlt : Q ℝ) (hd : Angles az alt pointingAz pointingAlt) :
    SameResult (fun q r => IsDegrees c r.1 q.1 ∧ IsDegrees c r.2 q.2) (calculateSourceFovLonlatQ c az alt pointingAz pointingAlt)
      (calculateSourceFovLonlat (siR az) (siR alt) (siR pointingAz) (siR pointingAlt)) := by
  unfold calculateSourceFovLonlatQ calculateSourceFovLonlat
  obtain ⟨d1, d2, d3, d4⟩ := hd
  rw [checkDim_bind, checkDim_bind, checkDim_bind, checkDim_bind]
  simp only [show (radian : PhysUnit ℝ).dim = dimAngle from rfl]
  rw [if_pos d3, if_pos d4, if_pos d1, if_pos d2, num_radian, num_radian, num_radian, num_radian]
  cases gadfFovCoordsLonLat (siR az) (siR alt) (siR pointingAz) (siR pointingAlt) with
  | error e => exact .error e
  | ok r => exact .ok _ _ ⟨inDegree_is hc _, inDegree_is hc _⟩

/-! ## The hypotheses can be met -/

/-- an hour angle and degrees -/
example : Angles ⟨⟨dimAngle, 15 / 64⟩, 2⟩ ⟨degree exConsts, 70⟩ ⟨radian, 1⟩ ⟨degree exConsts, 69⟩ ∧ 0 < exConsts.deg := ⟨⟨rfl, rfl, rfl, rfl⟩, by norm_num [exConsts]⟩

/-- edges in TeV and GeV that fit -/
example : RowsFit (1 / 10 ^ 8 * 1000) (siLL ⟨⟨dimEnergy, 1000⟩, [[.fin 1, .fin 2]]⟩) (siLL ⟨⟨dimEnergy, 1⟩, [[.fin 2000, .pinf]]⟩) := by
  intro r hr p hp
  simp only [siLL, List.map_cons, List.map_nil, List.zip_cons_cons, List.zip_nil_right, List.mem_cons, List.not_mem_nil, or_false] at hr
  subst hr
  simp only [List.tail_cons, List.dropLast, List.zip_cons_cons, List.zip_nil_right, List.mem_cons, List.not_mem_nil, or_false] at hp
  subst hp
  simp only [si, FV.fin_mul_fin]
  norm_num [CloseAt]

example : ∃ q, createBinsPerDecadeQ exConsts ⟨exGeV, 10⟩ ⟨teV exConsts, 100⟩ 5 = .ok q ∧ q.unit = exGeV := by
  obtain ⟨q, h1, h2, -⟩ := (C157_bins_per_decade exConsts ⟨exGeV, 10⟩ ⟨teV exConsts, 100⟩ (by norm_num [exGeV]) (by norm_num [teV, exConsts]) (by norm_num) (by norm_num) 5).1 ⟨rfl, rfl⟩
  exact ⟨q, h1, h2⟩

end Pyirf.Units
