import Verif.Irf.Model
import Verif.Simulations.LonlatProps
import Verif.Binning.HistCols

/-!
# Effective area (C38, C88)
-/
set_option linter.unusedSectionVars false
set_option linter.unusedSimpArgs false

namespace Pyirf.Irf
open Pyirf Pyirf.Np Pyirf.Utils Pyirf.Simulations Pyirf.Binning

/-! ## Specification -/

/-- number of events with a property -/
def numberWhere {ρ : Type*} (rows : List ρ) (P : ρ → Prop) [DecidablePred P] : ℕ := (rows.filter P).length

/-- The effective area for `sel` selected and (expected) `sim` simulated events in a bin: NaN or infinite if nothing was simulated. -/
noncomputable def areaOf (sel : ℕ) (sim area : ℝ) : FV ℝ :=
  if sim = 0 then (if sel = 0 then .nan else .pinf) else .fin (sel / sim * area)

/-- Area in which the showers were simulated. -/
noncomputable def simulatedArea (s : Info) : ℝ := Real.pi * s.maxImpact ^ 2

/-! ## Lemmas -/

theorem simulatedArea_pos {s : Info} (h : 0 < s.maxImpact) : 0 < simulatedArea s := by
  unfold simulatedArea; have := Real.pi_pos; positivity

theorem effectiveArea_eq (sel : ℕ) (sim : ℝ) {area : ℝ} (ha : 0 < area) :
    effectiveArea (.fin (sel : ℝ)) (.fin sim) area = areaOf sel sim area := by
  unfold effectiveArea areaOf
  by_cases h : sim = 0
  · rw [if_pos h, h, FV.fin_div_zero]
    by_cases h2 : sel = 0
    · subst h2; simp
    · have : (0:ℝ) < sel := by exact_mod_cast Nat.pos_of_ne_zero h2
      rw [FV.infSign_pos this, if_neg h2]
      exact FV.infSign_pos ha
  · rw [if_neg h, FV.fin_div_fin _ _ h, FV.fin_mul_fin]

theorem sumWhere_count {ρ σ : Type*} (events : List σ) (f : σ → ρ) (P : ρ → Prop) [DecidablePred P] (w : ρ → ℝ) (hw : ∀ e, w (f e) = 1) :
    sumWhere (events.map f) P w = (numberWhere events (fun e => P (f e)) : ℝ) := by
  rw [sumWhere_map, numberWhere, ← sumWhere_one]
  exact sumWhere_congr _ (fun _ _ => Iff.rfl) (fun r _ => hw r)

/-- well-formed energy edges for the simulation: increasing, no negative energy, no bin beyond both ends of the simulated range (C80) -/
structure EnergyEdges (s : Info) {n : ℕ} (bins : Fin (n + 1) → FV ℝ) : Prop where
  isBin : ∀ i : Fin n, IsBin (bins i.castSucc) (bins i.succ)
  notAll : ∀ i : Fin n, ¬ StrictlyContainsRange s (bins i.castSucc) (bins i.succ)

theorem incEdges_of_bins {n : ℕ} {bins : Fin (n + 1) → FV ℝ} (hn : 0 < n) (h : ∀ i : Fin n, IsBin (bins i.castSucc) (bins i.succ)) :
    IncEdges bins := by
  have hnan : ∀ i, bins i ≠ FV.nan := by
    intro i
    rcases Fin.eq_castSucc_or_eq_last i with ⟨k, rfl⟩ | rfl
    · exact (FV.ne_nan_of_lt (h k).lt).1
    · obtain ⟨m, rfl⟩ : ∃ m, n = m + 1 := ⟨n - 1, by omega⟩
      exact (FV.ne_nan_of_lt (h (Fin.last m)).lt).2
  refine ⟨hnan, fun i j hij => ?_⟩
  induction j using Fin.induction with
  | zero =>
    have : i = 0 := Fin.le_zero_iff.mp hij
    subst this; exact FV.le_refl' (hnan _)
  | succ k ih =>
    rcases hij.lt_or_eq with h1 | h1
    · exact FV.le_trans' (ih (Fin.le_castSucc_iff.mpr h1)) (FV.le_of_lt' (h k).lt)
    · rw [h1]; exact FV.le_refl' (hnan _)

/-! ## C38 -/

/-- **C38** (per energy) In every bin the effective area is the number of selected events in the bin over the expected number
of simulated ones, times the simulated area. -/
theorem C38_per_energy (events : EventTable ℝ) (s : Info) (hv : Valid s) (hR : 0 < s.maxImpact) {n : ℕ} (hn : 0 < n)
    (bins : Fin (n + 1) → FV ℝ) (hb : EnergyEdges s bins) (hw : events.hasParticle = true → "weighted" ∉ particles events.rows) :
    effectiveAreaPerEnergy events s bins = .ok fun i => areaOf (numberWhere events.rows (fun e => InBinOf bins i e.key))
      (expectedShowers s (bins i.castSucc) (bins i.succ)) (simulatedArea s) := by
  have hinc := incEdges_of_bins hn hb.isBin
  obtain ⟨tab, h1, -, -, -, h2, -⟩ := createHistogramTable_cols hinc.increasing events hw
  unfold effectiveAreaPerEnergy
  simp only [h1, h2, Option.getD_some]
  congr 1
  funext i
  have hcol : (column (List.ofFn bins) events.rows (fun _ => (1:ℝ))).getD i.val 0 =
      (numberWhere events.rows (fun e => InBinOf bins i e.key) : ℝ) := by
    unfold column
    rw [List.getD_eq_getElem?_getD, List.getElem?_map, List.getElem?_range (by simp)]
    simp only [Option.map_some, Option.getD_some]
    unfold sumOver numberWhere
    simp only [List.map_const', List.sum_replicate, nsmul_eq_mul, mul_one]
    congr 2
    apply List.filter_congr
    intro e _
    simp only [inBinOf_iff]
  rw [hcol, C26_expected_number s hv bins i (hb.isBin i) (hb.notAll i)]
  exact effectiveArea_eq _ _ (simulatedArea_pos hR)

/-- **C38** (per energy and offset) -/
theorem C38_per_energy_and_fov (events : List TrueEvent) (s : Info) (hv : Valid s) (hd : Diffuse s) (hR : 0 < s.maxImpact) {n m : ℕ}
    (hn : 0 < n) (bins : Fin (n + 1) → FV ℝ) (hb : EnergyEdges s bins) (fov : Fin (m + 1) → ℝ) (hf : Monotone fov) :
    effectiveAreaPerEnergyAndFov events s bins fov = .ok fun i j =>
      areaOf (numberWhere events (fun e => InBinOf bins i e.energy ∧ InBinOf (finEdges fov) j e.offset))
        (expectedShowers s (bins i.castSucc) (bins i.succ) * viewconeFraction s (fov j.castSucc) (fov j.succ)) (simulatedArea s) := by
  have hinc := incEdges_of_bins hn hb.isBin
  have hF : ∀ i : Fin m, fov i.castSucc ≤ fov i.succ := fun i => hf (Fin.castSucc_le_succ i)
  obtain ⟨v, h1, h2⟩ := C30_factorize s hv.showers bins fov _ _ (fun i => C26_expected_number s hv bins i (hb.isBin i) (hb.notAll i))
    (C29_fraction s hd fov hF)
  unfold effectiveAreaPerEnergyAndFov
  simp only [h1, histogram2d_ok hinc (show IncEdges (finEdges fov) from incEdges_fin hf)]
  congr 1
  funext i j
  rw [sumWhere_count events (fun e => (e.energy, e.offset, (1:ℝ))) _ (fun r => r.2.2) (fun _ => rfl)]
  rw [show Real.pi * s.maxImpact ^ 2 = simulatedArea s from rfl, effectiveArea_eq _ _ (simulatedArea_pos hR)]
  have : v i j = expectedShowers s (bins i.castSucc) (bins i.succ) * viewconeFraction s (fov j.castSucc) (fov j.succ) := by
    have := h2 i j
    have h0 := hv.showers.ne'
    apply mul_right_cancel₀ h0
    rw [this]; ring
  rw [this]

/-- **C38** (3d polar) The simulated showers of an offset bin are shared equally by the position angle bins (C31, C82). -/
theorem C38_polar (events : List TrueEvent) (s : Info) (hv : Valid s) (hd : Diffuse s) (hR : 0 < s.maxImpact) {n m k : ℕ}
    (hn : 0 < n) (hk : 0 < k) (bins : Fin (n + 1) → FV ℝ) (hb : EnergyEdges s bins) (fov : Fin (m + 1) → ℝ) (hf : Monotone fov)
    (pa : Fin (k + 1) → ℝ) (hpa : Monotone pa) :
    effectiveArea3dPolar events s bins fov pa = .ok fun i j l =>
      areaOf (numberWhere events (fun e => InBinOf bins i e.energy ∧ InBinOf (finEdges fov) j e.offset ∧ InBinOf (finEdges pa) l e.positionAngle))
        (expectedShowers s (bins i.castSucc) (bins i.succ) * viewconeFraction s (fov j.castSucc) (fov j.succ) / k) (simulatedArea s) := by
  have hinc := incEdges_of_bins hn hb.isBin
  have hF : ∀ i : Fin m, fov i.castSucc ≤ fov i.succ := fun i => hf (Fin.castSucc_le_succ i)
  obtain ⟨v, h1, h2⟩ := C30_factorize s hv.showers bins fov _ _ (fun i => C26_expected_number s hv bins i (hb.isBin i) (hb.notAll i))
    (C29_fraction s hd fov hF)
  obtain ⟨u, h3, h4, -⟩ := C31_polar_sum s hv.showers hd hk bins fov pa v h1
  unfold effectiveArea3dPolar
  simp only [h3, histogram3d_ok hinc (show IncEdges (finEdges fov) from incEdges_fin hf) (show IncEdges (finEdges pa) from incEdges_fin hpa)]
  congr 1
  funext i j l
  rw [sumWhere_count events (fun e => (e.energy, e.offset, e.positionAngle, (1:ℝ))) _ (fun r => r.2.2.2) (fun _ => rfl)]
  rw [show Real.pi * s.maxImpact ^ 2 = simulatedArea s from rfl, effectiveArea_eq _ _ (simulatedArea_pos hR), h4]
  have : v i j = expectedShowers s (bins i.castSucc) (bins i.succ) * viewconeFraction s (fov j.castSucc) (fov j.succ) := by
    have := h2 i j
    have h0 := hv.showers.ne'
    apply mul_right_cancel₀ h0
    rw [this]; ring
  rw [this]

/-- **C38** (range) Where something was simulated, the effective area is a number between 0 and the simulated area as long as not more events were
selected than simulated, and the event count can be recovered from it. -/
theorem C38_range (sel : ℕ) (sim area : ℝ) (hs : 0 < sim) (ha : 0 < area) :
    ∃ x, areaOf sel sim area = .fin x ∧ x * sim = sel * area ∧ 0 ≤ x ∧ ((sel : ℝ) ≤ sim → x ≤ area) := by
  refine ⟨sel / sim * area, by unfold areaOf; rw [if_neg hs.ne'], by field_simp, by positivity, fun h => ?_⟩
  have : (sel : ℝ) / sim ≤ 1 := by rw [div_le_one hs]; exact h
  nlinarith

/-- **C38** (additive) The effective areas of two disjoint event samples add up, wherever something was simulated. -/
theorem C38_additive (e1 e2 : EventTable ℝ) (hp1 : e1.hasParticle = false) (hp2 : e2.hasParticle = false) (s : Info) (hv : Valid s)
    (hR : 0 < s.maxImpact) {n : ℕ} (hn : 0 < n) (bins : Fin (n + 1) → FV ℝ) (hb : EnergyEdges s bins) (a1 a2 a : Fin n → FV ℝ)
    (h1 : effectiveAreaPerEnergy e1 s bins = .ok a1) (h2 : effectiveAreaPerEnergy e2 s bins = .ok a2)
    (h : effectiveAreaPerEnergy ⟨e1.hasWeight, false, e1.rows ++ e2.rows⟩ s bins = .ok a) (i : Fin n)
    (hsim : expectedShowers s (bins i.castSucc) (bins i.succ) ≠ 0) : a i = a1 i + a2 i := by
  rw [C38_per_energy _ s hv hR hn bins hb (by simp [hp1])] at h1
  rw [C38_per_energy _ s hv hR hn bins hb (by simp [hp2])] at h2
  rw [C38_per_energy _ s hv hR hn bins hb (by simp)] at h
  cases h1; cases h2; cases h
  simp only [areaOf, if_neg hsim, FV.fin_add_fin]
  congr 1
  unfold numberWhere
  rw [List.filter_append, List.length_append]
  push_cast
  ring

/-- the hypotheses are satisfiable: bins 0, 2 TeV, inf for a simulation of 1 to 10 TeV -/
example : EnergyEdges exInfo (![.fin 0, .fin 2, .pinf] : Fin 3 → FV ℝ) := by
  refine ⟨fun i => ?_, fun i => ?_⟩
  · fin_cases i
    · exact ⟨by simp [FV.le], by simp [FV.lt]⟩
    · exact ⟨by simp [FV.le], by simp [FV.lt]⟩
  · fin_cases i <;> simp [StrictlyContainsRange, exInfo, FV.lt] <;> norm_num

/-! ## C88: longitude / latitude bins -/

/-- **C88** (deviation, shape) With different numbers of longitude and latitude bins the result never has the documented shape
(energy, longitude, latitude): the call fails, or broadcasts a single bin. -/
theorem C88_never_documented_shape (events : List TrueEvent) (s : Info) {n p q : ℕ} (bins : Fin (n + 1) → FV ℝ) (g : Grid p q) (S : ℕ)
    (hpq : p ≠ q) : ¬ ∃ a, effectiveArea3dLonlat events s bins g S = .ok a ∧ a.shape = (n, p, q) := by
  rintro ⟨a, h1, h2⟩
  unfold effectiveArea3dLonlat at h1
  split at h1
  · cases h1
  · simp only [] at h1
    split at h1
    · cases h1
    · unfold broadcast3 Arr3.ofFn bcastLen at h1
      simp only [if_true] at h1
      have hqp : ¬ q = p := fun h => hpq h.symm
      simp only [hpq, hqp, if_false] at h1
      by_cases p1 : p = 1
      · simp only [p1, if_true] at h1
        have q1 : q ≠ 1 := fun h => hpq (p1.trans h.symm)
        simp only [q1, if_false] at h1
        injection h1 with h1
        rw [← h1] at h2
        simp only [Prod.mk.injEq] at h2
        omega
      · by_cases q1 : q = 1
        · simp only [p1, q1, if_false, if_true] at h1
          injection h1 with h1
          rw [← h1] at h2
          simp only [Prod.mk.injEq] at h2
          omega
        · simp only [p1, q1, if_false] at h1
          cases h1

/-- What the code computes for as many longitude as latitude bins: the events selected in longitude bin i and latitude bin j are divided by the
number simulated in longitude bin j and latitude bin i. -/
theorem lonlat_square (events : List TrueEvent) (s : Info) {n p : ℕ} (bins : Fin (n + 1) → FV ℝ) (hinc : IncEdges bins)
    (g : Grid p p) (hlon : Monotone g.lon) (hlat : Monotone g.lat) (S : ℕ) (r : Fin n → Fin p → Fin p → FV ℝ)
    (hr : nShowers3dLonlat s bins g S = .ok r) :
    ∃ a, effectiveArea3dLonlat events s bins g S = .ok a ∧ a.shape = (n, p, p) ∧ ∀ (e : Fin n) (i j : Fin p),
      a.val e i j = effectiveArea (.fin (numberWhere events (fun ev => InBinOf bins e ev.energy ∧
        InBinOf (finEdges g.lon) i ev.lon ∧ InBinOf (finEdges g.lat) j ev.lat) : ℝ)) (r e i j) (simulatedArea s) := by
  unfold effectiveArea3dLonlat
  simp only [hr, histogram3d_ok hinc (show IncEdges (finEdges g.lon) from incEdges_fin hlon)
    (show IncEdges (finEdges g.lat) from incEdges_fin hlat)]
  unfold broadcast3 Arr3.ofFn bcastLen
  simp only [if_true]
  refine ⟨_, rfl, rfl, ?_⟩
  intro e i j
  have hi : ∀ {m : ℕ} (x : Fin m), bcastIdx m x = x := by
    intro m x
    unfold bcastIdx
    split_ifs with h
    · omega
    · rfl
  simp only [hi]
  rw [dif_pos ⟨e.2, i.2, j.2⟩, dif_pos ⟨e.2, i.2, j.2⟩,
    sumWhere_count events (fun e => (e.energy, e.lon, e.lat, (1:ℝ))) _ (fun r => r.2.2.2) (fun _ => rfl)]
  rfl

theorem areaOf_inj {a b area : ℝ} (ha : 0 < a) (hb : 0 < b) (hA : 0 < area) (h : areaOf 1 a area = areaOf 1 b area) : a = b := by
  unfold areaOf at h
  rw [if_neg ha.ne', if_neg hb.ne'] at h
  simp only [FV.fin.injEq, Nat.cast_one] at h
  have := mul_right_cancel₀ hA.ne' h
  field_simp at this
  linarith

/-- **C88** (deviation, values) With equal numbers of bins the wrong cell's simulated number is used. Longitude bins
[0, 1] and [1, 2.5] deg, latitude bins [-1, 0] and [0, 1] deg, all inside a simulated cone, and one selected event in longitude bin 0 and latitude bin
1: the effective area there is not the ratio of selected and simulated events in that cell times the area. -/
theorem C88_wrong_cell :
    ¬ ∀ (events : List TrueEvent) (s : Info) (_ : Valid s) (_ : Diffuse s) (_ : 0 < s.maxImpact) (bins : Fin 2 → FV ℝ) (g : Grid 2 2) (a : Arr3 (FV ℝ)),
      EnergyEdges s bins → (∀ j i, InViewcone s (g.lon i) (g.lat j)) → StrictMono g.lon → StrictMono g.lat →
      effectiveArea3dLonlat events s bins g = .ok a →
      ∀ i j : Fin 2, a.val 0 i j = areaOf
        (numberWhere events (fun ev => InBinOf bins 0 ev.energy ∧ InBinOf (finEdges g.lon) i ev.lon ∧ InBinOf (finEdges g.lat) j ev.lat))
        (expectedShowers s (bins 0) (bins 1) *
          ((g.lon i.succ - g.lon i.castSucc) * (Real.sin (g.lat j.succ) - Real.sin (g.lat j.castSucc))) /
          (coneSolidAngle s.viewconeMax - coneSolidAngle s.viewconeMin)) (simulatedArea s) := by
  intro h
  have hd := deg_pos
  let g : Grid 2 2 := ⟨deg, deg, ![0, 1, 2 + 1 / 2], ![-1, 0, 1]⟩
  let bins : Fin 2 → FV ℝ := ![.fin exCone.energyMin, .fin exCone.energyMax]
  have hR : 0 < exCone.maxImpact := by norm_num [exCone]
  have hE : IsBin (.fin exCone.energyMin) (.fin exCone.energyMax) := ⟨by simp [exCone], by simp [exCone]⟩
  have hc : ¬ StrictlyContainsRange exCone (.fin exCone.energyMin) (.fin exCone.energyMax) := by
    simp [StrictlyContainsRange, FV.lt_irrefl']
  have hb : EnergyEdges exCone bins := ⟨fun i => by fin_cases i; exact hE, fun i => by fin_cases i; exact hc⟩
  have l0 : g.lon 0 = 0 := zero_mul deg
  have l1 : g.lon 1 = deg := one_mul deg
  have l2 : g.lon 2 = (2 + 1 / 2) * deg := rfl
  have b0 : g.lat 0 = -deg := neg_one_mul deg
  have b1 : g.lat 1 = 0 := zero_mul deg
  have b2 : g.lat 2 = deg := one_mul deg
  have hlon : StrictMono g.lon := by
    rw [Fin.strictMono_iff_lt_succ]
    intro i; fin_cases i
    · show g.lon 0 < g.lon 1
      rw [l0, l1]; exact hd
    · show g.lon 1 < g.lon 2
      rw [l1, l2]; linarith
  have hlat : StrictMono g.lat := by
    rw [Fin.strictMono_iff_lt_succ]
    intro i; fin_cases i
    · show g.lat 0 < g.lat 1
      rw [b0, b1]; linarith
    · show g.lat 1 < g.lat 2
      rw [b1, b2]; exact hd
  have hin : ∀ j i, InViewcone exCone (g.lon i) (g.lat j) := by
    intro j i
    refine ⟨(angularSeparation_mem _ _ _ _).1, ?_⟩
    show _ ≤ 3 * deg
    have h1 : 0 ≤ g.lon i ∧ g.lon i ≤ (2 + 1 / 2) * deg :=
      ⟨l0 ▸ hlon.monotone (Fin.zero_le i), l2 ▸ hlon.monotone (Fin.le_last i)⟩
    have h2 : -deg ≤ g.lat j ∧ g.lat j ≤ deg := ⟨b0 ▸ hlat.monotone (Fin.zero_le j), b2 ▸ hlat.monotone (Fin.le_last j)⟩
    apply sep_le_of (by positivity)
    have q1 := sq_le_sq' (by linarith [h1.1]) h1.2
    have q2 := sq_le_sq' h2.1 h2.2
    nlinarith
  have e11 : g.cornerDist 1 1 = deg := by
    show angularSeparation (g.lon 1) (g.lat 1) 0 0 = deg
    rw [l1, b1]; exact sep_equator hd.le (by linarith [deg_le, Real.pi_pos])
  have hr := C83_axes_inside exCone exCone_valid exCone_diffuse bins hb.isBin hb.notAll g 20 hin
    ⟨1, 1, by rw [e11]; exact hd⟩ ⟨1, 1, by rw [e11]; show deg < 3 * deg; linarith⟩
  let ev : TrueEvent := ⟨.fin 2, .nan, .nan, .fin (deg / 2), .fin (deg / 2)⟩
  obtain ⟨a, ha, -, hval⟩ := lonlat_square [ev] exCone bins (incEdges_of_bins one_pos hb.isBin) g hlon.monotone hlat.monotone 20 _ hr
  have hcount : numberWhere [ev] (fun ev => InBinOf bins 0 ev.energy ∧ InBinOf (finEdges g.lon) 0 ev.lon ∧
      InBinOf (finEdges g.lat) 1 ev.lat) = 1 := by
    have : InBinOf bins 0 ev.energy ∧ InBinOf (finEdges g.lon) 0 ev.lon ∧ InBinOf (finEdges g.lat) 1 ev.lat := by
      refine ⟨⟨?_, Or.inl ?_⟩, ⟨?_, Or.inl ?_⟩, ⟨?_, Or.inl ?_⟩⟩
      · show FV.le (.fin (1:ℝ)) (.fin 2) = true
        simp
      · show FV.lt (.fin (2:ℝ)) (.fin 10) = true
        simp; norm_num
      · show FV.le (.fin (g.lon 0)) (.fin (deg / 2)) = true
        rw [l0]; simp; linarith
      · show FV.lt (.fin (deg / 2)) (.fin (g.lon 1)) = true
        rw [l1]; simp; linarith
      · show FV.le (.fin (g.lat 1)) (.fin (deg / 2)) = true
        rw [b1]; simp; linarith
      · show FV.lt (.fin (deg / 2)) (.fin (g.lat 2)) = true
        rw [b2]; simp; linarith
    unfold numberWhere
    rw [List.filter_cons_of_pos (by simpa using this)]
    rfl
  have hpos : 0 < expectedShowers exCone (.fin exCone.energyMin) (.fin exCone.energyMax) := by
    rw [expectedShowers_eq exCone_valid hE]
    have e1 : clip exCone (.fin exCone.energyMax) = exCone.energyMax := by simp [clip, exCone_valid.lt.le]
    have e0 : clip exCone (.fin exCone.energyMin) = exCone.energyMin := by simp [clip, exCone_valid.lt.le]
    rw [e1, e0, cdf_full exCone_valid, mul_one]; exact exCone_valid.showers
  have hcd := coneDiff_pos exCone_diffuse
  have hsin : 0 < Real.sin deg := Real.sin_pos_of_pos_of_lt_pi hd (by linarith [deg_le, Real.pi_pos])
  have key := h [ev] exCone exCone_valid exCone_diffuse hR bins g a hb hin hlon hlat ha 0 1
  have v1 := hval 0 0 1
  simp only [Fin.val_zero, Fin.val_one] at v1 key
  change a.val 0 0 1 = _ at key
  rw [v1, effectiveArea_eq _ _ (simulatedArea_pos hR)] at key
  rw [hcount] at key
  change areaOf 1 (expectedShowers exCone (.fin exCone.energyMin) (.fin exCone.energyMax) *
    ((g.lon 2 - g.lon 1) * (Real.sin (g.lat 1) - Real.sin (g.lat 0))) /
      (coneSolidAngle exCone.viewconeMax - coneSolidAngle exCone.viewconeMin)) _ =
    areaOf 1 (expectedShowers exCone (.fin exCone.energyMin) (.fin exCone.energyMax) *
    ((g.lon 1 - g.lon 0) * (Real.sin (g.lat 2) - Real.sin (g.lat 1))) /
      (coneSolidAngle exCone.viewconeMax - coneSolidAngle exCone.viewconeMin)) _ at key
  rw [l0, l1, l2, b0, b1, b2, Real.sin_neg, Real.sin_zero, sub_zero, sub_zero, sub_neg_eq_add, zero_add] at key
  have h15 : (2 + 1 / 2) * deg - deg = 3 / 2 * deg := by ring
  rw [h15] at key
  have := areaOf_inj (by positivity) (by positivity) (simulatedArea_pos hR) key
  rw [div_left_inj' hcd.ne', mul_right_inj' hpos.ne'] at this
  nlinarith [mul_pos hd hsin]

/-- **C88** (equal numbers of longitude and latitude bins, any grid) Whenever the simulated numbers can be computed the call returns, with shape (energy, longitude,
latitude); the entry for longitude bin i and latitude bin j is the number of events selected in that cell over the number simulated in the cell of *longitude bin j
and latitude bin i*, times the simulated area. -/
theorem C88_values (events : List TrueEvent) (s : Info) (hv : Valid s) (hd : Diffuse s) (hR : 0 < s.maxImpact) {n p : ℕ} (hn : 0 < n)
    (bins : Fin (n + 1) → FV ℝ) (hb : EnergyEdges s bins) (g : Grid p p) (hlon : Monotone g.lon) (hlat : Monotone g.lat) (S : ℕ) (hS : 0 < S)
    (f : Fin p → Fin p → FV ℝ) (hf : fovLonlatGridOverlap s g S = .ok f) :
    ∃ (overlap : Fin p → Fin p → ℝ) (a : Arr3 (FV ℝ)), (∀ latBin lonBin, f latBin lonBin = .fin (overlap latBin lonBin)) ∧
      effectiveArea3dLonlat events s bins g S = .ok a ∧ a.shape = (n, p, p) ∧ ∀ (e : Fin n) (i j : Fin p),
      a.val e i j = areaOf (numberWhere events (fun ev => InBinOf bins e ev.energy ∧
          InBinOf (finEdges g.lon) i ev.lon ∧ InBinOf (finEdges g.lat) j ev.lat))
        (expectedShowers s (bins e.castSucc) (bins e.succ) * overlap i j *
          ((g.lon j.succ - g.lon j.castSucc) * (Real.sin (g.lat i.succ) - Real.sin (g.lat i.castSucc))) /
          (coneSolidAngle s.viewconeMax - coneSolidAngle s.viewconeMin)) (simulatedArea s) := by
  have hok : ∃ r, nShowers3dLonlat s bins g S = .ok r := by unfold nShowers3dLonlat; rw [hf]; exact ⟨_, rfl⟩
  obtain ⟨r, hr⟩ := hok
  obtain ⟨ov, ho, -, hval'⟩ := C83_axes s hv hd bins hb.isBin hb.notAll g S hS r hr
  obtain ⟨a, ha, hs, hval⟩ := lonlat_square events s bins (incEdges_of_bins hn hb.isBin) g hlon hlat S r hr
  refine ⟨ov, a, ?_, ha, hs, fun e i j => ?_⟩
  · intro j i
    rw [hf] at ho
    injection ho with ho
    rw [ho]
  · rw [hval e i j, hval', effectiveArea_eq _ _ (simulatedArea_pos hR)]

/-- **C88** (different numbers of bins) If the numbers of longitude and latitude bins differ and neither is 1, the call raises ValueError. With a single longitude bin the
result has shape (energy, latitude, latitude) and with a single latitude bin (energy, longitude, longitude): entry (e, a, b) divides the number selected
in the cell of latitude (longitude) bin b (a) by the number simulated in that of bin a (b). -/
theorem C88_unequal (events : List TrueEvent) (s : Info) (hR : 0 < s.maxImpact) {n p q : ℕ} (hn : 0 < n)
    (bins : Fin (n + 1) → FV ℝ) (hb : EnergyEdges s bins) (g : Grid p q) (hlon : Monotone g.lon) (hlat : Monotone g.lat) (S : ℕ) (hpq : p ≠ q)
    (r : Fin n → Fin q → Fin p → ℝ) (hr : nShowers3dLonlat s bins g S = .ok (fun e latBin lonBin => .fin (r e latBin lonBin))) :
    let selected := fun (e : Fin n) (i : Fin p) (j : Fin q) => numberWhere events (fun ev => InBinOf bins e ev.energy ∧
          InBinOf (finEdges g.lon) i ev.lon ∧ InBinOf (finEdges g.lat) j ev.lat)
    (p ≠ 1 → q ≠ 1 → effectiveArea3dLonlat events s bins g S = .error .valueError) ∧
    (∀ h : p = 1, ∃ a, effectiveArea3dLonlat events s bins g S = .ok a ∧ a.shape = (n, q, q) ∧ ∀ (e : Fin n) (i j : Fin q),
      a.val e i j = areaOf (selected e ⟨0, by omega⟩ j) (r e i ⟨0, by omega⟩) (simulatedArea s)) ∧
    (∀ h : q = 1, ∃ a, effectiveArea3dLonlat events s bins g S = .ok a ∧ a.shape = (n, p, p) ∧ ∀ (e : Fin n) (i j : Fin p),
      a.val e i j = areaOf (selected e i ⟨0, by omega⟩) (r e ⟨0, by omega⟩ j) (simulatedArea s)) := by
  intro selected
  have hinc := incEdges_of_bins hn hb.isBin
  have hqp : ¬ q = p := fun h => hpq h.symm
  have hi : ∀ {m : ℕ} (x : Fin m), bcastIdx m x = x := by
    intro m x
    unfold bcastIdx
    split_ifs with h
    · omega
    · rfl
  unfold effectiveArea3dLonlat
  simp only [hr, histogram3d_ok hinc (show IncEdges (finEdges g.lon) from incEdges_fin hlon)
    (show IncEdges (finEdges g.lat) from incEdges_fin hlat)]
  unfold broadcast3 Arr3.ofFn bcastLen
  simp only [if_true, hpq, hqp, if_false]
  refine ⟨?_, ?_, ?_⟩
  · intro h1 h2
    simp only [h1, h2, if_false]
  · intro h
    subst h
    have hq1 : ¬ q = 1 := fun h => hpq h.symm
    simp only [hq1, if_true, if_false]
    refine ⟨_, rfl, rfl, ?_⟩
    intro e i j
    simp only [hi]
    have z : ∀ x, bcastIdx 1 x = 0 := by intro x; simp [bcastIdx]
    rw [z, dif_pos ⟨e.2, by omega, j.2⟩, z, dif_pos ⟨e.2, i.2, by omega⟩,
      sumWhere_count events (fun e => (e.energy, e.lon, e.lat, (1:ℝ))) _ (fun r => r.2.2.2) (fun _ => rfl)]
    exact effectiveArea_eq _ _ (simulatedArea_pos hR)
  · intro h
    subst h
    simp only [hpq, if_true, if_false]
    refine ⟨_, rfl, rfl, ?_⟩
    intro e i j
    simp only [hi]
    have z : ∀ x, bcastIdx 1 x = 0 := by intro x; simp [bcastIdx]
    rw [z, dif_pos ⟨e.2, i.2, by omega⟩, z, dif_pos ⟨e.2, by omega, j.2⟩,
      sumWhere_count events (fun e => (e.energy, e.lon, e.lat, (1:ℝ))) _ (fun r => r.2.2.2) (fun _ => rfl)]
    exact effectiveArea_eq _ _ (simulatedArea_pos hR)

/-- the hypotheses of C88_unequal are satisfiable: two longitude bins and one latitude bin, cut by the viewcone -/
example : ∃ r : Fin 1 → Fin 1 → Fin 2 → ℝ, EnergyEdges exCone (![.fin 1, .fin 10] : Fin 2 → FV ℝ) ∧
    nShowers3dLonlat exCone ![.fin 1, .fin 10] exGrid 20 = .ok (fun e latBin lonBin => .fin (r e latBin lonBin)) := by
  have hE : IsBin (.fin (1:ℝ)) (.fin 10) := ⟨by simp, by simp⟩
  have hc : ¬ StrictlyContainsRange exCone (.fin (1:ℝ)) (.fin 10) := by simp [StrictlyContainsRange, exCone]
  have hb : EnergyEdges exCone (![.fin 1, .fin 10] : Fin 2 → FV ℝ) := ⟨fun i => by fin_cases i; exact hE, fun i => by fin_cases i; exact hc⟩
  exact ⟨_, hb, C32_numbers exCone exCone_valid exCone_diffuse _ hb.isBin hb.notAll exGrid (by norm_num) (by norm_num) exGrid_ok.1 exGrid_ok.2.1 20
    (by norm_num)⟩

theorem areaOf_one_inj {a b area : ℝ} (hA : 0 < area) (h : areaOf 1 a area = areaOf 1 b area) : a = b := by
  unfold areaOf at h
  by_cases h1 : a = 0 <;> by_cases h2 : b = 0
  · rw [h1, h2]
  · simp [h1, h2] at h
  · simp [h1, h2] at h
  · simp [h1, h2] at h
    exact h.resolve_right hA.ne'

/-- **C88** On a grid with equal numbers of bins whose corners are in the viewcone (not all on its rim), and some energy bin with simulated showers, the entries are the
ratio of selected to simulated events of their own cell for every event list exactly if all products (width of longitude bin i) x (width of latitude bin j in
sine) are symmetric in i and j. -/
theorem C88_correct_iff (s : Info) (hv : Valid s) (hd : Diffuse s) (hR : 0 < s.maxImpact) {n p : ℕ} (hn : 0 < n)
    (bins : Fin (n + 1) → FV ℝ) (hb : EnergyEdges s bins) (g : Grid p p) (hlon : StrictMono g.lon) (hlat : StrictMono g.lat) (S : ℕ)
    (hin : ∀ j i, InViewcone s (g.lon i) (g.lat j))
    (h1 : ∃ j i, s.viewconeMin < g.cornerDist j i) (h2 : ∃ j i, g.cornerDist j i < s.viewconeMax)
    (hpos : ∃ e : Fin n, expectedShowers s (bins e.castSucc) (bins e.succ) ≠ 0) :
    (∀ events : List TrueEvent, ∃ a, effectiveArea3dLonlat events s bins g S = .ok a ∧ a.shape = (n, p, p) ∧ ∀ (e : Fin n) (i j : Fin p),
      a.val e i j = areaOf (numberWhere events (fun ev => InBinOf bins e ev.energy ∧
          InBinOf (finEdges g.lon) i ev.lon ∧ InBinOf (finEdges g.lat) j ev.lat))
        (expectedShowers s (bins e.castSucc) (bins e.succ) *
          ((g.lon i.succ - g.lon i.castSucc) * (Real.sin (g.lat j.succ) - Real.sin (g.lat j.castSucc))) /
          (coneSolidAngle s.viewconeMax - coneSolidAngle s.viewconeMin)) (simulatedArea s)) ↔
    ∀ i j : Fin p, (g.lon i.succ - g.lon i.castSucc) * (Real.sin (g.lat j.succ) - Real.sin (g.lat j.castSucc)) =
        (g.lon j.succ - g.lon j.castSucc) * (Real.sin (g.lat i.succ) - Real.sin (g.lat i.castSucc)) := by
  have hr := C83_axes_inside s hv hd bins hb.isBin hb.notAll g S hin h1 h2
  have hinc := incEdges_of_bins hn hb.isBin
  have hcd := (coneDiff_pos hd).ne'
  constructor
  · intro h i j
    obtain ⟨e, he⟩ := hpos
    let ev : TrueEvent := ⟨bins e.castSucc, .nan, .nan, .fin (g.lon i.castSucc), .fin (g.lat j.castSucc)⟩
    obtain ⟨a, ha, -, hval⟩ := lonlat_square [ev] s bins hinc g hlon.monotone hlat.monotone S _ hr
    obtain ⟨a', ha', -, hval'⟩ := h [ev]
    rw [ha] at ha'
    injection ha' with ha'
    subst ha'
    have hcount : numberWhere [ev] (fun ev => InBinOf bins e ev.energy ∧ InBinOf (finEdges g.lon) i ev.lon ∧
        InBinOf (finEdges g.lat) j ev.lat) = 1 := by
      have : InBinOf bins e ev.energy ∧ InBinOf (finEdges g.lon) i ev.lon ∧ InBinOf (finEdges g.lat) j ev.lat := by
        refine ⟨⟨?_, Or.inl ?_⟩, ⟨?_, Or.inl ?_⟩, ⟨?_, Or.inl ?_⟩⟩
        · exact FV.le_refl' (FV.ne_nan_of_lt (hb.isBin e).lt).1
        · exact (hb.isBin e).lt
        · exact FV.le_refl' (by simp [finEdges])
        · simp [finEdges, ev]; exact hlon Fin.castSucc_lt_succ
        · exact FV.le_refl' (by simp [finEdges])
        · simp [finEdges, ev]; exact hlat Fin.castSucc_lt_succ
      unfold numberWhere
      rw [List.filter_cons_of_pos (by simpa using this)]
      rfl
    have q1 := hval e i j
    have q2 := hval' e i j
    rw [q1, effectiveArea_eq _ _ (simulatedArea_pos hR), hcount] at q2
    have := areaOf_one_inj (simulatedArea_pos hR) q2
    rw [div_left_inj' hcd] at this
    exact (mul_left_cancel₀ he this).symm
  · intro h events
    obtain ⟨a, ha, hs, hval⟩ := lonlat_square events s bins hinc g hlon.monotone hlat.monotone S _ hr
    refine ⟨a, ha, hs, fun e i j => ?_⟩
    rw [hval e i j, effectiveArea_eq _ _ (simulatedArea_pos hR), h i j]

end Pyirf.Irf
