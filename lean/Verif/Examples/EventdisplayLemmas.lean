import Verif.Examples.EventdisplayModel
import Verif.CutOpt.TotalProps
import Verif.CutOpt.ReapplyProps
import Verif.Binning.DecadeProps
import Verif.Binning.Props
import Verif.Pipeline.MoreProps
import Verif.Spectral.ConstantProps
import Verif.Coords.Props

/-! # Lemmas about the EventDisplay script -/
set_option linter.unusedSectionVars false
set_option linter.unusedSimpArgs false

namespace Pyirf.Examples
open Pyirf Pyirf.Np Pyirf.Binning Pyirf.Cuts Pyirf.Sensitivity Pyirf.CutOpt Pyirf.Simulations Pyirf.Spectral Pyirf.Coords

/-- Energy bins with an underflow bin from 0 and an overflow bin to infinity around positive increasing edges. -/
def OverflowBins (B : List (FV ℝ)) : Prop :=
  ∃ es : List ℝ, es ≠ [] ∧ (∀ e ∈ es, 0 < e) ∧ es.Pairwise (· < ·) ∧ B = .fin 0 :: (es.map FV.fin ++ [.pinf])

/-- finite edges of at least one bin -/
def FiniteBins (l : List ℝ) : Prop := 2 ≤ l.length ∧ l.Pairwise (· < ·)

/-- What the properties use of the settings. -/
structure Proper (s : Settings) : Prop where
  tObs : 0 < s.tObs
  alpha : 0 < s.alpha
  radius : 0 < s.maxBgRadius ∧ s.maxBgRadius ≤ Real.pi
  eff : s.ghEff ≠ [] ∧ ∀ x ∈ s.ghEff, 0 ≤ x ∧ x ≤ 1
  thetaBins : OverflowBins s.thetaBins
  sensitivityBins : OverflowBins s.sensitivityBins
  theta : s.thetaMin ≤ s.thetaMax
  percentile : 0 ≤ s.percentile ∧ s.percentile ≤ 100
  trueBins : OverflowBins s.trueEnergyBins
  recoBins : OverflowBins s.recoEnergyBins
  fovBins : FiniteBins s.fovOffsetBins
  sourceBins : FiniteBins s.sourceOffsetBins
  migrationBins : FiniteBins s.migrationBins
  backgroundFov : FiniteBins s.backgroundFovBins

theorem OverflowBins.increasing1 {B : List (FV ℝ)} (h : OverflowBins B) : Increasing1 B := by
  obtain ⟨es, -, hpos, hs, rfl⟩ := h
  refine ⟨?_, ?_⟩
  · intro x hx
    simp only [List.mem_cons, List.mem_append, List.mem_map, List.mem_nil_iff, or_false] at hx
    rcases hx with rfl | ⟨e, -, rfl⟩ | rfl <;> simp
  · rw [List.pairwise_cons]
    refine ⟨?_, ?_⟩
    · intro x hx
      simp only [List.mem_append, List.mem_map, List.mem_cons, List.mem_nil_iff, or_false] at hx
      rcases hx with ⟨e, he, rfl⟩ | rfl
      · simpa [FV.lt] using hpos e he
      · simp [FV.lt]
    · rw [List.pairwise_append]
      refine ⟨?_, by simp, ?_⟩
      · rw [List.pairwise_map]
        exact hs.imp (by intro a b hab; simpa [FV.lt] using hab)
      · intro a ha b hb
        obtain ⟨e, -, rfl⟩ := List.mem_map.mp ha
        simp only [List.mem_cons, List.mem_nil_iff, or_false] at hb
        subst hb
        simp [FV.lt]

theorem OverflowBins.two {B : List (FV ℝ)} (h : OverflowBins B) : 2 ≤ B.length := by
  obtain ⟨es, -, -, -, rfl⟩ := h
  simp

/-- the bin centres are positive, possibly infinite -/
theorem OverflowBins.center_pos {B : List (FV ℝ)} (h : OverflowBins B) {x : FV ℝ} (hx : x ∈ binCenter B) : FV.lt (.fin 0) x = true := by
  have hB := h.increasing1
  have h2 := h.two
  obtain ⟨es, hne, hpos, hs, rfl⟩ := h
  obtain ⟨i, hi, rfl⟩ := List.getElem_of_mem hx
  have hi' : i + 1 < (FV.fin 0 :: (es.map FV.fin ++ [FV.pinf])).length := by
    rw [length_binCenter] at hi; omega
  have e := center_getElem (FV.fin 0 :: (es.map FV.fin ++ [FV.pinf])) i hi'
  rw [List.getElem?_eq_getElem hi] at e
  rw [Option.some.inj e]
  have hle : ∀ y ∈ (FV.fin 0 :: (es.map FV.fin ++ [FV.pinf])), FV.le (.fin 0) y = true := by
    intro y hy
    rcases List.mem_cons.mp hy with rfl | hy
    · simp [FV.le]
    · exact FV.le_of_lt' ((List.pairwise_cons.mp hB.2).1 y hy)
  have hlt := List.pairwise_iff_getElem.mp hB.2 i (i + 1) (by omega) hi' (by omega)
  have h0 := hle _ (List.getElem_mem (by omega : i < _))
  generalize (FV.fin 0 :: (es.map FV.fin ++ [FV.pinf]))[i] = a at hlt h0 ⊢
  generalize (FV.fin 0 :: (es.map FV.fin ++ [FV.pinf]))[i + 1] = b at hlt ⊢
  cases a <;> cases b <;> simp_all [middle, FV.lt, FV.le]
  linarith

theorem log10F_lt {x y : FV ℝ} (hx : FV.lt (.fin 0) x = true) (h : FV.lt x y = true) : FV.lt (log10F x) (log10F y) = true := by
  cases x <;> cases y <;> simp_all [FV.lt, log10F]
  rename_i a b
  rw [if_pos (hx.trans h)]
  simpa [FV.lt] using Real.logb_lt_logb (by norm_num) hx h

theorem log10F_ok {x : FV ℝ} (hx : FV.lt (.fin 0) x = true) : log10F x ≠ .nan ∧ log10F x ≠ .ninf := by
  cases x <;> simp_all [FV.lt, log10F]

theorem log10_increasing {B : List (FV ℝ)} (h : OverflowBins B) : Increasing1 ((binCenter B).map log10F) := by
  have hm := mid_increasing h.increasing1
  refine ⟨?_, ?_⟩
  · intro x hx
    obtain ⟨c, hc, rfl⟩ := List.mem_map.mp hx
    exact log10F_ok (h.center_pos hc)
  · rw [List.pairwise_map]
    refine hm.2.imp_of_mem ?_
    intro a b ha hb hab
    exact log10F_lt (h.center_pos ha) hab

/-! ## The settings -/

theorem overflowBins_ok (eMin eMax : ℝ) (n : ℕ) (h0 : 0 < eMin) (h1 : eMin ≤ eMax) (hn : 1 ≤ n) :
    overflowBins eMin eMax n = .ok (.fin 0 :: ((createBinsPerDecade eMin eMax n).map FV.fin ++ [.pinf])) ∧
    OverflowBins (.fin 0 :: ((createBinsPerDecade eMin eMax n).map FV.fin ++ [.pinf])) := by
  obtain ⟨⟨hl, hf⟩, hval, -, -, -⟩ := C04_bins_per_decade eMin eMax n h0 h1 hn
  have hn' : (0:ℝ) < n := by exact_mod_cast hn
  have hpos : ∀ e ∈ createBinsPerDecade eMin eMax n, 0 < e := by
    intro e he
    obtain ⟨k, hk, rfl⟩ := List.getElem_of_mem he
    rw [hval k hk]; positivity
  have hs : (createBinsPerDecade eMin eMax n).Pairwise (· < ·) := by
    rw [List.pairwise_iff_getElem]
    intro i j hi hj hij
    rw [hval i hi, hval j hj]
    refine mul_lt_mul_of_pos_left ?_ h0
    apply Real.rpow_lt_rpow_of_exponent_lt (by norm_num)
    gcongr
  refine ⟨?_, createBinsPerDecade eMin eMax n, ?_, hpos, hs, rfl⟩
  · unfold overflowBins addOverflowBins
    generalize createBinsPerDecade eMin eMax n = es at hl hpos
    cases es with
    | nil => simp at hl
    | cons e es =>
      have hp : 0 < e := hpos e (by simp)
      have hg : FV.gt (FV.fin e) (FV.fin 0) = true := by simpa [FV.gt, FV.lt] using hp
      simp only [List.map_cons, if_true, hg]
      have hlast : ∃ x : ℝ, (FV.fin 0 :: FV.fin e :: es.map FV.fin).getLast? = some (.fin x) := by
        rw [List.getLast?_cons_cons]
        rw [show FV.fin e :: es.map FV.fin = (e :: es).map FV.fin from rfl, List.getLast?_map]
        cases h : (e :: es).getLast? with
        | none => simp at h
        | some x => exact ⟨x, rfl⟩
      obtain ⟨x, hx⟩ := hlast
      rw [hx]
      simp [FV.lt]
  · intro h; rw [h] at hl; simp at hl

theorem arange_pairwise (a b h : ℝ) (hh : 0 < h) : (arange a b h).Pairwise (· < ·) := by
  unfold arange
  rw [List.pairwise_map]
  refine List.pairwise_lt_range.imp ?_
  intro i j hij
  have : (i:ℝ) < j := by exact_mod_cast hij
  nlinarith

theorem length_arange (a b h : ℝ) : (arange a b h).length = ⌈(b - a) / h⌉.toNat := by simp [arange]

theorem pairwise_mul (l : List ℝ) (c : ℝ) (hc : 0 < c) (h : l.Pairwise (· < ·)) : (l.map (· * c)).Pairwise (· < ·) := by
  rw [List.pairwise_map]
  exact h.imp (by intro a b hab; exact mul_lt_mul_of_pos_right hab hc)

theorem deg_pos : 0 < deg := by unfold deg; positivity

/-- the settings of the script -/
theorem settings_ok : ∃ s, settings = .ok s ∧ Proper s ∧ s.thetaMin = 0.05 * deg ∧ s.thetaMax = 0.32 * deg ∧ s.sensitivityBins = s.recoEnergyBins ∧
    s.initialGhCutEfficiency = 0.4 ∧ s.percentile = 68 := by
  have p : (0:ℝ) < 10 ^ (-1.9 : ℝ) := by positivity
  have le1 : (10:ℝ) ^ (-1.9 : ℝ) ≤ 10 ^ (2.3005 : ℝ) := Real.rpow_le_rpow_of_exponent_le (by norm_num) (by norm_num)
  have le2 : (10:ℝ) ^ (-1.9 : ℝ) ≤ 10 ^ (2.31 : ℝ) := Real.rpow_le_rpow_of_exponent_le (by norm_num) (by norm_num)
  obtain ⟨e1, o1⟩ := overflowBins_ok _ _ 50 p le1 (by norm_num)
  obtain ⟨e2, o2⟩ := overflowBins_ok _ _ 5 p le2 (by norm_num)
  obtain ⟨e3, o3⟩ := overflowBins_ok _ _ 10 p le2 (by norm_num)
  have hd := deg_pos
  have hpi := Real.pi_pos
  unfold settings
  rw [e1, e2, e3]
  refine ⟨_, rfl, ?_, rfl, rfl, rfl, rfl, rfl⟩
  constructor
  · norm_num
  · norm_num
  · refine ⟨by simpa using hd, ?_⟩
    show 1 * deg ≤ Real.pi
    unfold deg; linarith
  · refine ⟨?_, ?_⟩
    · intro h
      have := congrArg List.length h
      rw [length_arange] at this
      norm_num at this
    · intro x hx
      have hx' : x ∈ arange 0.01 (0.8 + 0.01 / 2) 0.01 := hx
      obtain ⟨k, hk, rfl⟩ := List.getElem_of_mem hx'
      rw [length_arange] at hk
      have hc : (⌈((0.8 + 0.01 / 2 - 0.01 : ℝ) / 0.01)⌉) = 80 := by rw [Int.ceil_eq_iff]; norm_num
      rw [hc] at hk
      have hk' : (k:ℝ) ≤ 79 := by
        have : k < 80 := hk
        exact_mod_cast (by omega : k ≤ 79)
      simp only [arange, List.getElem_map, List.getElem_range]
      have : (0:ℝ) ≤ k := Nat.cast_nonneg k
      constructor <;> linarith
  · exact o1
  · exact o2
  · show 0.05 * deg ≤ 0.32 * deg
    gcongr; norm_num
  · norm_num
  · exact o3
  · exact o2
  · refine ⟨by simp, ?_⟩
    simp only [List.pairwise_cons, List.mem_cons, List.mem_nil_iff, or_false, forall_eq, List.Pairwise.nil, and_true, false_imp_iff, implies_true, zero_mul]
    positivity
  · refine ⟨?_, pairwise_mul _ _ hd (arange_pairwise _ _ _ (by norm_num))⟩
    show 2 ≤ (List.map (· * deg) (arange 0 (1 + 1e-4) 1e-3)).length
    rw [List.length_map, length_arange]
    have hc : (⌈((1 + 1e-4 - 0 : ℝ) / 1e-3)⌉) = 1001 := by rw [Int.ceil_eq_iff]; norm_num
    rw [hc]; norm_num
  · refine ⟨?_, ?_⟩
    · show 2 ≤ (geomspace 0.2 5 200).length
      simp [geomspace]
    · show (geomspace 0.2 5 200).Pairwise (· < ·)
      unfold geomspace
      rw [List.pairwise_map]
      refine List.pairwise_lt_range.imp ?_
      intro i j hij
      refine mul_lt_mul_of_pos_left ?_ (by norm_num)
      apply Real.rpow_lt_rpow_of_exponent_lt (by norm_num)
      have : (i:ℝ) < j := by exact_mod_cast hij
      gcongr
  · refine ⟨?_, pairwise_mul _ _ hd (arange_pairwise _ _ _ (by norm_num))⟩
    show 2 ≤ (List.map (· * deg) (arange 0 11 1)).length
    rw [List.length_map, length_arange]
    have hc : (⌈((11 - 0 : ℝ) / 1)⌉) = 11 := by rw [Int.ceil_eq_iff]; norm_num
    rw [hc]; norm_num

/-! ## Edges as arrays -/

theorem edges_get {α : Type} (d : α) (l : List α) (i : Fin (l.length - 1 + 1)) (h : 0 < l.length) :
    edgesOf d l i = l[i.val]'(by omega) := by
  unfold edgesOf
  rw [List.getD_eq_getElem?_getD, List.getElem?_eq_getElem (by omega)]; rfl

theorem ofFn_edges {α : Type} (d : α) (l : List α) (h : 0 < l.length) : List.ofFn (edgesOf d l) = l := by
  apply List.ext_getElem
  · simp; omega
  · intro i h1 h2
    rw [List.getElem_ofFn, edges_get d l _ h]

theorem incEdges_of (l : List (FV ℝ)) (h : Increasing1 l) (h2 : 2 ≤ l.length) : IncEdges (fEdges l) := by
  refine ⟨?_, ?_⟩
  · intro i
    unfold fEdges
    rw [edges_get _ _ _ (by omega)]
    exact (h.1 _ (List.getElem_mem _)).1
  · intro i j hij
    unfold fEdges
    rw [edges_get _ _ _ (by omega), edges_get _ _ _ (by omega)]
    rcases lt_or_eq_of_le hij with hlt | rfl
    · exact FV.le_of_lt' (List.pairwise_iff_getElem.mp h.2 _ _ _ _ hlt)
    · exact FV.le_refl' (h.1 _ (List.getElem_mem _)).1

theorem mono_of (l : List ℝ) (h : FiniteBins l) : Monotone (rEdges l) := by
  intro i j hij
  unfold rEdges
  rw [edges_get _ _ _ (by have := h.1; omega), edges_get _ _ _ (by have := h.1; omega)]
  rcases lt_or_eq_of_le hij with hlt | rfl
  · exact le_of_lt (List.pairwise_iff_getElem.mp h.2 _ _ _ _ hlt)
  · exact le_refl _

end Pyirf.Examples
