import Verif.Units.BenchModel
import Verif.Units.IrfProps
import Verif.Bench.Lemmas
import Verif.Cuts.UnitProps

/-!
# C153: bin indices, benchmarks and the background estimate do not depend on the units of the arguments
-/
set_option linter.unusedSectionVars false
set_option linter.unusedSimpArgs false

namespace Pyirf.Units
open Pyirf Pyirf.Np Pyirf.Io Pyirf.Binning Pyirf.Bench
open Pyirf.Cuts (scale_pinf scale_ninf scale_scale isNan_scale lt_scale le_scale)

/-! ## Specification -/

/-- Two lists are the same quantities, given in two units. -/
def SameL (x y : Q (List (FV ℝ))) : Prop := SameU x.unit y.unit ∧ List.Forall₂ (fun a b => si x.unit a = si y.unit b) x.val y.val

/-- Two tables with the same events, whose columns have other units. -/
def SameBench (t u : BenchTable) : Prop :=
  SameU t.trueEnergy u.trueEnergy ∧ SameU t.recoEnergy u.recoEnergy ∧ SameU t.theta u.theta ∧
  List.Forall₂ (fun r r' : Bench.Event => si t.trueEnergy r.trueEnergy = si u.trueEnergy r'.trueEnergy ∧ si t.recoEnergy r.recoEnergy = si u.recoEnergy r'.recoEnergy ∧
    si t.theta r.theta = si u.theta r'.theta) t.rows u.rows

/-- The events with both energies in the unit `target` (and the angles as they are). -/
noncomputable def BenchTable.energiesIn (t : BenchTable) (target : PhysUnit ℝ) : List Bench.Event :=
  t.rows.map fun e => ⟨conv t.trueEnergy target e.trueEnergy, conv t.recoEnergy target e.recoEnergy, e.theta⟩

/-- A bias table with the bins in SI units. -/
noncomputable def BiasTableQ.si (q : BiasTableQ) : BiasTable :=
  ⟨q.table.low.map (Units.si q.unit), q.table.high.map (Units.si q.unit), q.table.center.map (Units.si q.unit), q.table.nEvents, q.table.bias, q.table.resolution⟩

/-- A table of angular resolutions with bins and resolutions in SI units. -/
noncomputable def AngTableQ.si (q : AngTableQ) : AngTable :=
  ⟨q.table.low.map (Units.si q.unit), q.table.high.map (Units.si q.unit), q.table.center.map (Units.si q.unit), q.table.nEvents, fun k => (q.table.cols k).map fun c => c.map (Units.si q.theta)⟩

/-! ## Lemmas -/

theorem conv_eq {un target : PhysUnit ℝ} : conv un target = (FV.fin (un.scale / target.scale) * ·) := rfl

theorem noDescent_scale {c : ℝ} (hc : 0 < c) : ∀ l : List (FV ℝ), noDescent (l.map (FV.fin c * ·)) = noDescent l
  | [] => rfl
  | [_] => rfl
  | a :: b :: l => by
    have := noDescent_scale hc (b :: l)
    simp only [List.map_cons, noDescent, FV.gt, lt_scale hc] at this ⊢
    rw [this]

theorem noAscent_scale {c : ℝ} (hc : 0 < c) : ∀ l : List (FV ℝ), noAscent (l.map (FV.fin c * ·)) = noAscent l
  | [] => rfl
  | [_] => rfl
  | a :: b :: l => by
    have := noAscent_scale hc (b :: l)
    simp only [List.map_cons, noAscent, lt_scale hc] at this ⊢
    rw [this]

theorem monotonicity_scale {c : ℝ} (hc : 0 < c) : ∀ l : List (FV ℝ), monotonicity (l.map (FV.fin c * ·)) = monotonicity l
  | [] => rfl
  | [_] => rfl
  | a :: b :: l => by
    have h1 := monotonicity_scale hc (b :: l)
    have h2 := noDescent_scale hc (b :: l)
    have h3 := noAscent_scale hc (b :: l)
    simp only [List.map_cons, monotonicity, lt_scale hc, beq_scale hc] at h1 h2 h3 ⊢
    rw [h1, h2, h3]

theorem digitize_scale {c : ℝ} (hc : 0 < c) (l : List (FV ℝ)) (x : FV ℝ) : digitize (l.map (FV.fin c * ·)) (FV.fin c * x) = digitize l x := by
  unfold digitize
  rw [monotonicity_scale hc, ← List.map_reverse, searchsortedRight_scale hc, searchsortedRight_scale hc, List.length_map]

theorem calculateBinIndices_scale {c : ℝ} (hc : 0 < c) (a b : Bool) (data bins : List (FV ℝ)) :
    calculateBinIndices a b (data.map (FV.fin c * ·)) (bins.map (FV.fin c * ·)) = calculateBinIndices a b data bins := by
  unfold calculateBinIndices
  rw [monotonicity_scale hc, List.map_map, List.length_map]
  simp only [Function.comp_def, digitize_scale hc]

theorem binCenter_scale {c : ℝ} (hc : 0 < c) (l : List (FV ℝ)) : binCenter (l.map (FV.fin c * ·)) = (binCenter l).map (FV.fin c * ·) := by
  unfold binCenter
  rw [← List.map_dropLast, ← List.map_tail, List.zipWith_map, List.map_zipWith]
  congr 1
  funext a b
  rw [add_scale hc, scale_scale (by norm_num), scale_scale hc, mul_comm]

theorem conv_self {un : PhysUnit ℝ} (h : 0 < un.scale) (x : FV ℝ) : conv un un x = x := by
  unfold conv; rw [div_self h.ne', one_scale]

theorem conv_conv {a b d : PhysUnit ℝ} (ha : 0 < a.scale) (hb : 0 < b.scale) (hd : 0 < d.scale) (x : FV ℝ) : conv b d (conv a b x) = conv a d x := by
  unfold conv
  rw [scale_scale (by positivity)]
  congr 2
  field_simp

theorem si_conv {a b : PhysUnit ℝ} (hb : 0 < b.scale) (x : FV ℝ) : si b (conv a b x) = si a x := by
  unfold si conv
  rw [scale_scale hb]
  congr 2
  field_simp

theorem conv_of_si {a b target : PhysUnit ℝ} (ht : 0 < target.scale) {x y : FV ℝ} (h : si a x = si b y) : conv a target x = conv b target y := by
  have e : ∀ (un : PhysUnit ℝ) (x : FV ℝ), conv un target x = .fin (1 / target.scale) * si un x := fun un x => by
    unfold conv si
    rw [scale_scale (by positivity)]
    congr 2; field_simp
  rw [e, e, h]

theorem listIn_listIn {x : Q (List (FV ℝ))} (hx : 0 < x.unit.scale) {b d : PhysUnit ℝ} (hb : 0 < b.scale) (hd : 0 < d.scale) : (x.listIn b).map (conv b d) = x.listIn d := by
  unfold Q.listIn
  rw [List.map_map]
  apply List.map_congr_left
  intro a _
  exact conv_conv hx hb hd a

theorem SameL.listIn {x y : Q (List (FV ℝ))} (h : SameL x y) {target : PhysUnit ℝ} (ht : 0 < target.scale) : x.listIn target = y.listIn target := by
  unfold Q.listIn
  apply List.forall₂_eq_eq_eq ▸ (List.forall₂_map_left_iff.2 (List.forall₂_map_right_iff.2 (h.2.imp ?_)))
  intro a b e
  exact conv_of_si ht e

/-! ## Bin indices -/

/-- **C153** (bin indices) The indices are those of the numbers in any common unit; another dimension raises a UnitsError. -/
theorem C153_bin_indices (data bins : Q (List (FV ℝ))) (hd : 0 < data.unit.scale) (hb : 0 < bins.unit.scale) :
    (bins.unit.dim = data.unit.dim → ∀ target : PhysUnit ℝ, 0 < target.scale → calculateBinIndicesQ data bins = calculateBinIndices true true (data.listIn target) (bins.listIn target)) ∧
    (bins.unit.dim ≠ data.unit.dim → calculateBinIndicesQ data bins = .error .unitsError) := by
  unfold calculateBinIndicesQ
  rw [checkDim_bind]
  refine ⟨fun h target ht => ?_, fun h => if_neg h⟩
  rw [if_pos h, ← calculateBinIndices_scale (div_pos hd ht)]
  congr 1
  exact listIn_listIn hb hd ht

/-- **C153** (bin indices, same quantities) -/
theorem C153_bin_indices_same {data data' bins bins' : Q (List (FV ℝ))} (h : SameL data data') (hb : SameL bins bins') : calculateBinIndicesQ data bins = calculateBinIndicesQ data' bins' := by
  obtain ⟨a1, a2⟩ := C153_bin_indices data bins h.1.2.1 hb.1.2.1
  obtain ⟨b1, b2⟩ := C153_bin_indices data' bins' h.1.2.2 hb.1.2.2
  rw [← h.1.1, ← hb.1.1] at b1 b2
  by_cases e : bins.unit.dim = data.unit.dim
  · rw [a1 e data.unit h.1.2.1, b1 e data.unit h.1.2.1, h.listIn h.1.2.1, hb.listIn h.1.2.1]
  · rw [a2 e, b2 e]

/-! ## Bias and resolution of the energy -/

theorem ratio_dim (a b : Dim) : Dim.mul a (Dim.inv b) = Dim.one ↔ a = b := by
  cases a; cases b
  simp only [Dim.mul, Dim.inv, Dim.one, Dim.mk.injEq]
  constructor
  · rintro ⟨a, b, d, e⟩; exact ⟨by omega, by omega, by omega, by omega⟩
  · rintro ⟨a, b, d, e⟩; exact ⟨by omega, by omega, by omega, by omega⟩

theorem calculateBinIndices_flags (data bins : List (FV ℝ)) : calculateBinIndices true true data bins = calculateBinIndices false false data bins := rfl

theorem energies_map (t : BenchTable) (ty : EnergyType) (target : PhysUnit ℝ) :
    (t.energiesIn target).map (Bench.Event.energy ty) = (⟨t.energyUnit ty, t.rows.map (Bench.Event.energy ty)⟩ : Q (List (FV ℝ))).listIn target := by
  unfold BenchTable.energiesIn Q.listIn
  rw [List.map_map, List.map_map]
  apply List.map_congr_left
  intro e _
  cases ty <;> rfl

theorem relErrors (t : BenchTable) (ht : 0 < t.trueEnergy.scale) (hr : 0 < t.recoEnergy.scale) {target : PhysUnit ℝ} (h : 0 < target.scale) :
    (t.energiesIn target).map Bench.Event.relError = t.rows.map fun e => FV.fin (t.recoEnergy.scale / t.trueEnergy.scale) * (e.recoEnergy / e.trueEnergy) - .fin 1 := by
  unfold BenchTable.energiesIn
  rw [List.map_map]
  apply List.map_congr_left
  intro e _
  simp only [Function.comp, Bench.Event.relError, conv]
  rw [mul_div_mul (by positivity) (by positivity)]
  congr 3
  field_simp

theorem energyUnit_dim (t : BenchTable) (h : t.recoEnergy.dim = t.trueEnergy.dim) (ty : EnergyType) : (t.energyUnit ty).dim = t.trueEnergy.dim := by cases ty <;> simp [BenchTable.energyUnit, h]

/-- **C153** (bias and resolution) The table is that of the events with energies in the unit of the bins. -/
theorem C153_bias_si (biasFn resFn : List (FV ℝ) → Except Err (FV ℝ)) (ty : EnergyType) (t : BenchTable) (ht : 0 < t.trueEnergy.scale) (hr : 0 < t.recoEnergy.scale) (bins : Q (List (FV ℝ)))
    (hb : 0 < bins.unit.scale) :
    (t.recoEnergy.dim = t.trueEnergy.dim ∧ (bins.unit.dim = t.trueEnergy.dim ∨ t.rows = []) →
      energyBiasResolutionQ biasFn resFn ty t bins = (energyBiasResolution biasFn resFn ty (t.energiesIn bins.unit) bins.val).map (BiasTableQ.mk bins.unit)) ∧
    (¬ (t.recoEnergy.dim = t.trueEnergy.dim ∧ (bins.unit.dim = t.trueEnergy.dim ∨ t.rows = [])) → energyBiasResolutionQ biasFn resFn ty t bins = .error .unitsError) := by
  have hu : 0 < (t.energyUnit ty).scale := by cases ty <;> assumption
  constructor
  · rintro ⟨h1, h2⟩
    unfold energyBiasResolutionQ energyBiasResolution
    rw [checkDim_bind, if_pos (show (⟨Dim.mul t.recoEnergy.dim (Dim.inv t.trueEnergy.dim), t.recoEnergy.scale / t.trueEnergy.scale⟩ : PhysUnit ℝ).dim = (unitOne : PhysUnit ℝ).dim from (ratio_dim _ _).2 h1)]
    cases hrows : t.rows with
    | nil =>
      have : t.energiesIn bins.unit = [] := by unfold BenchTable.energiesIn; rw [hrows]; rfl
      rw [if_pos this]
      rfl
    | cons e l =>
      have hne : t.energiesIn bins.unit ≠ [] := by unfold BenchTable.energiesIn; rw [hrows]; simp
      rw [if_neg hne]
      simp only
      rw [← hrows]
      have h3 : bins.unit.dim = (t.energyUnit ty).dim := by
        rw [energyUnit_dim t h1]; exact h2.resolve_right (by rw [hrows]; simp)
      have hself : bins.listIn bins.unit = bins.val := by
        unfold Q.listIn
        exact (List.map_congr_left (g := id) (fun a _ => conv_self hb a)).trans (List.map_id _)
      rw [(C153_bin_indices ⟨t.energyUnit ty, _⟩ bins hu hb).1 h3 bins.unit hb, ← energies_map, hself, calculateBinIndices_flags, relErrors t ht hr hb]
      generalize calculateBinIndices (K := ℝ) false false _ _ = r
      cases r with
      | error e => rfl
      | ok idx =>
        simp only [bind, Except.bind]
        generalize Cuts.groupedBy _ = r2
        cases r2 with
        | error e => rfl
        | ok keys =>
          simp only
          generalize List.foldlM (m := Except Err) _ _ _ = r3
          cases r3 <;> rfl
  · intro h
    unfold energyBiasResolutionQ
    rw [checkDim_bind]
    by_cases h1 : t.recoEnergy.dim = t.trueEnergy.dim
    · rw [if_pos (show (⟨Dim.mul t.recoEnergy.dim (Dim.inv t.trueEnergy.dim), t.recoEnergy.scale / t.trueEnergy.scale⟩ : PhysUnit ℝ).dim = (unitOne : PhysUnit ℝ).dim from (ratio_dim _ _).2 h1)]
      cases hrows : t.rows with
      | nil => exact absurd ⟨h1, Or.inr hrows⟩ h
      | cons e l =>
        have h3 : bins.unit.dim ≠ (t.energyUnit ty).dim := by
          rw [energyUnit_dim t h1]; exact fun e => h ⟨h1, Or.inl e⟩
        simp only
        rw [(C153_bin_indices ⟨t.energyUnit ty, _⟩ bins hu hb).2 h3]
        rfl
    · exact if_neg (fun e => h1 ((ratio_dim _ _).1 e))

/-- a bias table with other columns of the bins -/
def biasCols (f : FV ℝ → FV ℝ) (t : BiasTable) : BiasTable := ⟨t.low.map f, t.high.map f, t.center.map f, t.nEvents, t.bias, t.resolution⟩

theorem biasStep_one (biasFn resFn : List (FV ℝ) → Except Err (FV ℝ)) (byBin : List (ℕ × FV ℝ)) (f : FV ℝ → FV ℝ) (k : ℕ) (tab : BiasTable) :
    biasStep biasFn resFn byBin (biasCols f tab) k = (biasStep biasFn resFn byBin tab k).map (biasCols f) := by
  unfold biasStep
  simp only
  generalize biasFn _ = r1
  cases r1 with
  | error e => rfl
  | ok b =>
    simp only
    generalize resFn _ = r2
    cases r2 with
    | error e => rfl
    | ok r => rfl

/-- the loop does not look at the columns of the bins -/
theorem biasStep_cols (biasFn resFn : List (FV ℝ) → Except Err (FV ℝ)) (byBin : List (ℕ × FV ℝ)) (f : FV ℝ → FV ℝ) (keys : List ℕ) (tab : BiasTable) :
    keys.foldlM (biasStep biasFn resFn byBin) (biasCols f tab) = (keys.foldlM (biasStep biasFn resFn byBin) tab).map (biasCols f) := by
  induction keys generalizing tab with
  | nil => rfl
  | cons k l ih =>
    rw [List.foldlM_cons, List.foldlM_cons, biasStep_one]
    cases biasStep biasFn resFn byBin tab k with
    | error e => rfl
    | ok t => exact ih t

/-- events and bins multiplied by the same number -/
theorem energyBiasResolution_scale {c : ℝ} (hc : 0 < c) (biasFn resFn : List (FV ℝ) → Except Err (FV ℝ)) (ty : EnergyType) (events : List Bench.Event) (bins : List (FV ℝ)) :
    energyBiasResolution biasFn resFn ty (events.map fun e => ⟨FV.fin c * e.trueEnergy, FV.fin c * e.recoEnergy, e.theta⟩) (bins.map (FV.fin c * ·)) =
      (energyBiasResolution biasFn resFn ty events bins).map fun t => ⟨t.low.map (FV.fin c * ·), t.high.map (FV.fin c * ·), t.center.map (FV.fin c * ·), t.nEvents, t.bias, t.resolution⟩ := by
  unfold energyBiasResolution
  have e1 : (events.map fun e => (⟨FV.fin c * e.trueEnergy, FV.fin c * e.recoEnergy, e.theta⟩ : Bench.Event)).map (Bench.Event.energy ty) = (events.map (Bench.Event.energy ty)).map (FV.fin c * ·) := by
    rw [List.map_map, List.map_map]
    apply List.map_congr_left
    intro e _
    cases ty <;> rfl
  have e2 : (events.map fun e => (⟨FV.fin c * e.trueEnergy, FV.fin c * e.recoEnergy, e.theta⟩ : Bench.Event)).map Bench.Event.relError = events.map Bench.Event.relError := by
    rw [List.map_map]
    apply List.map_congr_left
    intro e _
    simp only [Function.comp, Bench.Event.relError]
    rw [mul_div_mul hc hc, div_self hc.ne', one_scale]
  rw [e1, e2, calculateBinIndices_scale hc, List.length_map, binCenter_scale hc, ← List.map_dropLast, ← List.map_tail]
  by_cases he : events = []
  · rw [if_pos he, if_pos (by rw [he]; rfl)]
    rfl
  · rw [if_neg he, if_neg (by simpa using he)]
    generalize calculateBinIndices (K := ℝ) false false _ _ = r
    cases r with
    | error e => rfl
    | ok idx =>
      simp only
      generalize Cuts.groupedBy _ = r2
      cases r2 with
      | error e => rfl
      | ok keys => exact biasStep_cols biasFn resFn _ _ keys ⟨bins.dropLast, bins.tail, binCenter bins, _, _, _⟩

theorem energiesIn_conv (t : BenchTable) (ht : 0 < t.trueEnergy.scale) (hr : 0 < t.recoEnergy.scale) {a b : PhysUnit ℝ} (ha : 0 < a.scale) (hb : 0 < b.scale) :
    (t.energiesIn a).map (fun e => (⟨FV.fin (a.scale / b.scale) * e.trueEnergy, FV.fin (a.scale / b.scale) * e.recoEnergy, e.theta⟩ : Bench.Event)) = t.energiesIn b := by
  unfold BenchTable.energiesIn
  rw [List.map_map]
  apply List.map_congr_left
  intro e _
  have h1 := conv_conv ht ha hb e.trueEnergy
  have h2 := conv_conv hr ha hb e.recoEnergy
  simp only [Function.comp]
  rw [← h1, ← h2]
  rfl

/-- the bias does not look at the angles -/
theorem energyBiasResolution_theta (biasFn resFn : List (FV ℝ) → Except Err (FV ℝ)) (ty : EnergyType) (events : List Bench.Event) (bins : List (FV ℝ)) :
    energyBiasResolution biasFn resFn ty (events.map fun e => ⟨e.trueEnergy, e.recoEnergy, .nan⟩) bins = energyBiasResolution biasFn resFn ty events bins := by
  unfold energyBiasResolution
  have e1 : (events.map fun e => (⟨e.trueEnergy, e.recoEnergy, .nan⟩ : Bench.Event)).map (Bench.Event.energy ty) = events.map (Bench.Event.energy ty) := by
    rw [List.map_map]
    apply List.map_congr_left
    intro e _
    cases ty <;> rfl
  have e2 : (events.map fun e => (⟨e.trueEnergy, e.recoEnergy, .nan⟩ : Bench.Event)).map Bench.Event.relError = events.map Bench.Event.relError := by
    rw [List.map_map]; rfl
  rw [e1, e2]
  simp only [List.map_eq_nil_iff]

theorem energiesIn_same {t u : BenchTable} (h : SameBench t u) {target : PhysUnit ℝ} (ht : 0 < target.scale) :
    (t.energiesIn target).map (fun e => (⟨e.trueEnergy, e.recoEnergy, .nan⟩ : Bench.Event)) = (u.energiesIn target).map (fun e => (⟨e.trueEnergy, e.recoEnergy, .nan⟩ : Bench.Event)) := by
  unfold BenchTable.energiesIn
  rw [List.map_map, List.map_map]
  apply List.forall₂_eq_eq_eq ▸ (List.forall₂_map_left_iff.2 (List.forall₂_map_right_iff.2 (h.2.2.2.imp ?_)))
  intro a b e
  simp only [Function.comp]
  rw [conv_of_si ht e.1, conv_of_si ht e.2.1]

theorem bias_si (biasFn resFn : List (FV ℝ) → Except Err (FV ℝ)) (ty : EnergyType) (t : BenchTable) (ht : 0 < t.trueEnergy.scale) (hr : 0 < t.recoEnergy.scale) (bins : Q (List (FV ℝ)))
    (hb : 0 < bins.unit.scale) (d : Dim) :
    ((energyBiasResolution biasFn resFn ty (t.energiesIn bins.unit) bins.val).map (BiasTableQ.mk bins.unit)).map BiasTableQ.si =
      energyBiasResolution biasFn resFn ty (t.energiesIn ⟨d, 1⟩) (bins.listIn ⟨d, 1⟩) := by
  have h1 := energyBiasResolution_scale hb biasFn resFn ty (t.energiesIn bins.unit) bins.val
  have h2 := energiesIn_conv t ht hr hb (b := ⟨d, 1⟩) one_pos
  rw [div_one] at h2
  have h3 : bins.listIn ⟨d, 1⟩ = bins.val.map (FV.fin bins.unit.scale * ·) := by
    unfold Q.listIn conv
    rw [div_one]
  rw [← h2, h3, h1]
  generalize energyBiasResolution biasFn resFn ty _ _ = r
  cases r <;> rfl

/-- **C153** (bias and resolution, same quantities) The same numbers of events, biases, resolutions and bins, whatever the units. -/
theorem C153_bias (biasFn resFn : List (FV ℝ) → Except Err (FV ℝ)) (ty : EnergyType) {t u : BenchTable} (h : SameBench t u) {bins bins' : Q (List (FV ℝ))} (hb : SameL bins bins') :
    (energyBiasResolutionQ biasFn resFn ty t bins).map BiasTableQ.si = (energyBiasResolutionQ biasFn resFn ty u bins').map BiasTableQ.si := by
  obtain ⟨a1, a2⟩ := C153_bias_si biasFn resFn ty t h.1.2.1 h.2.1.2.1 bins hb.1.2.1
  obtain ⟨b1, b2⟩ := C153_bias_si biasFn resFn ty u h.1.2.2 h.2.1.2.2 bins' hb.1.2.2
  rw [← h.1.1, ← h.2.1.1, ← hb.1.1] at b1 b2
  have hnil : u.rows = [] ↔ t.rows = [] := by
    have := h.2.2.2.length_eq
    rw [← List.length_eq_zero_iff, ← List.length_eq_zero_iff, this]
  rw [hnil] at b1 b2
  by_cases e : t.recoEnergy.dim = t.trueEnergy.dim ∧ (bins.unit.dim = t.trueEnergy.dim ∨ t.rows = [])
  · rw [a1 e, b1 e, bias_si biasFn resFn ty t h.1.2.1 h.2.1.2.1 bins hb.1.2.1 bins.unit.dim, bias_si biasFn resFn ty u h.1.2.2 h.2.1.2.2 bins' hb.1.2.2 bins.unit.dim,
      hb.listIn (target := ⟨bins.unit.dim, 1⟩) one_pos, ← energyBiasResolution_theta, energiesIn_same h one_pos, energyBiasResolution_theta]
  · rw [a2 e, b2 e]

/-! ## Angular resolution -/

/-- **C153** (angular resolution) The table is that of the events with energies in the unit of the bins, the resolutions are in the unit of the angles. -/
theorem C153_angular_si (ty : EnergyType) (qs : List ℝ) (t : BenchTable) (ht : 0 < t.trueEnergy.scale) (hr : 0 < t.recoEnergy.scale) (bins : Q (List (FV ℝ))) (hb : 0 < bins.unit.scale) :
    (bins.unit.dim = (t.energyUnit ty).dim → angularResolutionQ ty qs t bins = (angularResolution ty qs (t.energiesIn bins.unit) bins.val).map (AngTableQ.mk bins.unit t.theta)) ∧
    (bins.unit.dim ≠ (t.energyUnit ty).dim → angularResolutionQ ty qs t bins = .error .unitsError) := by
  have hu : 0 < (t.energyUnit ty).scale := by cases ty <;> assumption
  have hself : bins.listIn bins.unit = bins.val := by
    unfold Q.listIn
    exact (List.map_congr_left (g := id) (fun a _ => conv_self hb a)).trans (List.map_id _)
  constructor
  · intro h
    unfold angularResolutionQ angularResolution
    rw [(C153_bin_indices ⟨t.energyUnit ty, _⟩ bins hu hb).1 h bins.unit hb, ← energies_map, hself, calculateBinIndices_flags]
    have hth : (t.energiesIn bins.unit).map Bench.Event.theta = t.rows.map Bench.Event.theta := by
      unfold BenchTable.energiesIn; rw [List.map_map]; rfl
    rw [hth]
    generalize calculateBinIndices (K := ℝ) false false _ _ = r
    cases r with
    | error e => rfl
    | ok idx =>
      simp only [bind, Except.bind]
      cases hrows : t.rows with
      | nil =>
        have : t.energiesIn bins.unit = [] := by unfold BenchTable.energiesIn; rw [hrows]; rfl
        rw [if_pos this]
        rfl
      | cons e l =>
        have hne : t.energiesIn bins.unit ≠ [] := by unfold BenchTable.energiesIn; rw [hrows]; simp
        rw [if_neg hne]
        simp only
        generalize Cuts.groupedBy _ = r2
        cases r2 with
        | error e => rfl
        | ok keys =>
          simp only
          generalize List.foldlM (m := Except Err) _ _ _ = r3
          cases r3 <;> rfl
  · intro h
    unfold angularResolutionQ
    rw [(C153_bin_indices ⟨t.energyUnit ty, _⟩ bins hu hb).2 h]
    rfl

theorem nanquantile_scale {c : ℝ} (hc : 0 < c) {g : List (FV ℝ)} (hg : NoInf g) (q : ℝ) : nanquantile (g.map (FV.fin c * ·)) q = (nanquantile g q).map (FV.fin c * ·) := by
  by_cases h : 0 ≤ q ∧ q ≤ 1
  · rw [nanquantile_ok h.1 h.2, nanquantile_ok h.1 h.2, Cuts.pctVal_scale hc (by linarith [h.1]) (by linarith [h.2]) hg]
    rfl
  · unfold nanquantile
    rw [if_neg h, if_neg h]
    rfl

theorem quantiles_scale {c : ℝ} (hc : 0 < c) {g : List (FV ℝ)} (hg : NoInf g) (qs : List ℝ) :
    qs.mapM (fun q => nanquantile (g.map (FV.fin c * ·)) q) = (qs.mapM (fun q => nanquantile g q)).map (fun l => l.map (FV.fin c * ·)) := by
  induction qs with
  | nil => rfl
  | cons q l ih =>
    rw [List.mapM_cons, List.mapM_cons, nanquantile_scale hc hg, ih]
    cases nanquantile g q with
    | error e => rfl
    | ok v =>
      simp only [bind, Except.bind, Except.map, pure, Except.pure]
      generalize List.mapM (m := Except Err) _ l = r
      cases r <;> rfl

/-- a table of angular resolutions with other columns of the bins, and scaled resolutions -/
noncomputable def angCols (f g : FV ℝ → FV ℝ) (t : AngTable) : AngTable := ⟨t.low.map f, t.high.map f, t.center.map f, t.nEvents, fun k => (t.cols k).map fun c => c.map g⟩

theorem setCell_scale (g : FV ℝ → FV ℝ) (k : ℕ) (cols : ℤ → Option (List (FV ℝ))) (kv : ℤ × FV ℝ) :
    setCell k (fun j => (cols j).map fun c => c.map g) (kv.1, g kv.2) = fun j => (setCell k cols kv j).map fun c => c.map g := by
  funext j
  unfold setCell
  by_cases h : j = kv.1
  · subst h
    simp only [Function.update_self, Option.map_map]
    cases cols kv.1 with
    | none => rfl
    | some c => simp only [Option.map_some, Function.comp, List.map_set]
  · simp only [Function.update_of_ne h]

theorem setCells_scale (g : FV ℝ → FV ℝ) (k : ℕ) (keys : List ℤ) (values : List (FV ℝ)) (cols : ℤ → Option (List (FV ℝ))) :
    (keys.zip (values.map g)).foldl (setCell k) (fun j => (cols j).map fun c => c.map g) = fun j => ((keys.zip values).foldl (setCell k) cols j).map fun c => c.map g := by
  induction keys generalizing values cols with
  | nil => rfl
  | cons a l ih =>
    cases values with
    | nil => rfl
    | cons v vs =>
      simp only [List.map_cons, List.zip_cons_cons, List.foldl_cons]
      rw [setCell_scale g k cols (a, v)]
      exact ih vs _

theorem group_scale' (c : ℝ) (byBin : List (ℕ × FV ℝ)) (k : ℕ) :
    ((byBin.map fun e => (e.1, FV.fin c * e.2)).filter (fun e => e.1 = k)).map Prod.snd = ((byBin.filter (fun e => e.1 = k)).map Prod.snd).map (FV.fin c * ·) := by
  rw [List.filter_map, List.map_map, List.map_map]
  rfl

theorem angStep_one (qs : List ℝ) (byBin : List (ℕ × FV ℝ)) (hi : NoInf (byBin.map Prod.snd)) (f : FV ℝ → FV ℝ) {c : ℝ} (hc : 0 < c) (k : ℕ) (tab : AngTable) :
    angStep qs (byBin.map fun e => (e.1, FV.fin c * e.2)) (angCols f (FV.fin c * ·) tab) k = (angStep qs byBin tab k).map (angCols f (FV.fin c * ·)) := by
  unfold angStep
  simp only
  rw [group_scale', quantiles_scale hc]
  · rw [List.length_map]
    generalize List.mapM (m := Except Err) _ qs = r
    cases r with
    | error e => rfl
    | ok values =>
      simp only [Except.map, angCols]
      rw [setCells_scale]
  · intro v hv
    obtain ⟨e, he, rfl⟩ := List.mem_map.1 hv
    exact hi _ (List.mem_map_of_mem (List.mem_filter.1 he).1)

theorem angStep_cols (qs : List ℝ) (byBin : List (ℕ × FV ℝ)) (hi : NoInf (byBin.map Prod.snd)) (f : FV ℝ → FV ℝ) {c : ℝ} (hc : 0 < c) (keys : List ℕ) (tab : AngTable) :
    keys.foldlM (angStep qs (byBin.map fun e => (e.1, FV.fin c * e.2))) (angCols f (FV.fin c * ·) tab) = (keys.foldlM (angStep qs byBin) tab).map (angCols f (FV.fin c * ·)) := by
  induction keys generalizing tab with
  | nil => rfl
  | cons k l ih =>
    rw [List.foldlM_cons, List.foldlM_cons, angStep_one qs byBin hi f hc]
    cases angStep qs byBin tab k with
    | error e => rfl
    | ok t => exact ih t

theorem initCols_scale (g : FV ℝ → FV ℝ) (hg : g .nan = .nan) (n : ℕ) (keys : List ℤ) (cols : ℤ → Option (List (FV ℝ))) :
    (fun j => ((keys.foldl (fun c key => Function.update c key (some (List.replicate n FV.nan))) cols) j).map fun c => c.map g) =
      keys.foldl (fun c key => Function.update c key (some (List.replicate n FV.nan))) (fun j => (cols j).map fun c => c.map g) := by
  induction keys generalizing cols with
  | nil => rfl
  | cons a l ih =>
    rw [List.foldl_cons, List.foldl_cons, ih]
    congr 1
    funext j
    by_cases h : j = a
    · subst h
      simp only [Function.update_self, Option.map_some, List.map_replicate, hg]
    · simp only [Function.update_of_ne h]

/-- energies, bins and angles in other units -/
theorem angularResolution_scale {c d : ℝ} (hc : 0 < c) (hd : 0 < d) (ty : EnergyType) (qs : List ℝ) (events : List Bench.Event) (hi : NoInf (events.map Bench.Event.theta)) (bins : List (FV ℝ)) :
    angularResolution ty qs (events.map fun e => ⟨FV.fin c * e.trueEnergy, FV.fin c * e.recoEnergy, FV.fin d * e.theta⟩) (bins.map (FV.fin c * ·)) =
      (angularResolution ty qs events bins).map (angCols (FV.fin c * ·) (FV.fin d * ·)) := by
  unfold angularResolution
  have e1 : (events.map fun e => (⟨FV.fin c * e.trueEnergy, FV.fin c * e.recoEnergy, FV.fin d * e.theta⟩ : Bench.Event)).map (Bench.Event.energy ty) = (events.map (Bench.Event.energy ty)).map (FV.fin c * ·) := by
    rw [List.map_map, List.map_map]
    apply List.map_congr_left
    intro e _
    cases ty <;> rfl
  have e2 : (events.map fun e => (⟨FV.fin c * e.trueEnergy, FV.fin c * e.recoEnergy, FV.fin d * e.theta⟩ : Bench.Event)).map Bench.Event.theta = (events.map Bench.Event.theta).map (FV.fin d * ·) := by
    rw [List.map_map, List.map_map]; rfl
  rw [e1, e2, calculateBinIndices_scale hc, List.length_map, binCenter_scale hc, ← List.map_dropLast, ← List.map_tail]
  have hinit := initCols_scale (FV.fin d * ·) rfl (bins.length - 1) (qs.map quantileKey) (fun _ => none)
  have hnone : (fun j : ℤ => ((fun _ => none : ℤ → Option (List (FV ℝ))) j).map fun c => c.map (FV.fin d * ·)) = fun _ => none := rfl
  rw [hnone] at hinit
  have hinit' : (⟨bins.dropLast.map (FV.fin c * ·), bins.tail.map (FV.fin c * ·), (binCenter bins).map (FV.fin c * ·), List.replicate (bins.length - 1) 0,
      (qs.map quantileKey).foldl (fun c key => Function.update c key (some (List.replicate (bins.length - 1) FV.nan))) (fun _ => none)⟩ : AngTable) =
      angCols (FV.fin c * ·) (FV.fin d * ·) ⟨bins.dropLast, bins.tail, binCenter bins, List.replicate (bins.length - 1) 0,
        (qs.map quantileKey).foldl (fun c key => Function.update c key (some (List.replicate (bins.length - 1) FV.nan))) (fun _ => none)⟩ := by
    unfold angCols
    congr 1
    exact hinit.symm
  generalize calculateBinIndices (K := ℝ) false false _ _ = r
  cases r with
  | error e => rfl
  | ok idx =>
    simp only
    rw [hinit']
    by_cases he : events = []
    · rw [if_pos he, if_pos (by rw [he]; rfl)]
      rfl
    · rw [if_neg he, if_neg (by simpa using he)]
      have e3 : ((idx.zip ((events.map Bench.Event.theta).map (FV.fin d * ·))).filter (fun e => e.1.2)).map (fun e => (e.1.1.toNat, e.2)) =
          (((idx.zip (events.map Bench.Event.theta)).filter (fun e => e.1.2)).map (fun e => (e.1.1.toNat, e.2))).map fun e => (e.1, FV.fin d * e.2) := by
        rw [List.zip_map_right, List.filter_map, List.map_map, List.map_map]
        rfl
      have e4 : ∀ l : List (ℕ × FV ℝ), (l.map fun e => (e.1, FV.fin d * e.2)).map Prod.fst = l.map Prod.fst := fun l => by rw [List.map_map]; rfl
      rw [e3, e4]
      generalize Cuts.groupedBy _ = r2
      cases r2 with
      | error e => rfl
      | ok keys =>
        simp only
        refine angStep_cols qs _ ?_ (FV.fin c * ·) hd keys _
        intro v hv
        obtain ⟨e, he', rfl⟩ := List.mem_map.1 hv
        obtain ⟨e', he'', rfl⟩ := List.mem_map.1 he'
        exact hi _ (List.of_mem_zip (List.mem_filter.1 he'').1).2

/-- all columns in SI units -/
noncomputable def siRows (t : BenchTable) : List Bench.Event := t.rows.map fun e => ⟨Units.si t.trueEnergy e.trueEnergy, Units.si t.recoEnergy e.recoEnergy, Units.si t.theta e.theta⟩

theorem ang_si (ty : EnergyType) (qs : List ℝ) (t : BenchTable) (ht : 0 < t.trueEnergy.scale) (hr : 0 < t.recoEnergy.scale) (hth : 0 < t.theta.scale) (hi : NoInf (t.rows.map Bench.Event.theta))
    (bins : Q (List (FV ℝ))) (hb : 0 < bins.unit.scale) :
    ((angularResolution ty qs (t.energiesIn bins.unit) bins.val).map (AngTableQ.mk bins.unit t.theta)).map AngTableQ.si = angularResolution ty qs (siRows t) (bins.val.map (Units.si bins.unit)) := by
  have hi' : NoInf ((t.energiesIn bins.unit).map Bench.Event.theta) := by
    unfold BenchTable.energiesIn; rw [List.map_map]; exact hi
  have h1 := angularResolution_scale hb hth ty qs (t.energiesIn bins.unit) hi' bins.val
  have h2 : siRows t = (t.energiesIn bins.unit).map fun e => ⟨FV.fin bins.unit.scale * e.trueEnergy, FV.fin bins.unit.scale * e.recoEnergy, FV.fin t.theta.scale * e.theta⟩ := by
    unfold siRows BenchTable.energiesIn
    rw [List.map_map]
    apply List.map_congr_left
    intro e _
    have k1 := si_conv (a := t.trueEnergy) hb e.trueEnergy
    have k2 := si_conv (a := t.recoEnergy) hb e.recoEnergy
    rw [← k1, ← k2]
    rfl
  rw [h2]
  refine Eq.trans ?_ h1.symm
  generalize angularResolution ty qs _ _ = r
  cases r <;> rfl

/-- **C153** (angular resolution, same quantities) The same numbers of events, resolutions and bins, whatever the units, if no angle is infinite. -/
theorem C153_angular (ty : EnergyType) (qs : List ℝ) {t u : BenchTable} (h : SameBench t u) (hi : ∀ r ∈ t.rows, r.theta ≠ .ninf ∧ r.theta ≠ .pinf) {bins bins' : Q (List (FV ℝ))}
    (hb : SameL bins bins') : (angularResolutionQ ty qs t bins).map AngTableQ.si = (angularResolutionQ ty qs u bins').map AngTableQ.si := by
  obtain ⟨a1, a2⟩ := C153_angular_si ty qs t h.1.2.1 h.2.1.2.1 bins hb.1.2.1
  obtain ⟨b1, b2⟩ := C153_angular_si ty qs u h.1.2.2 h.2.1.2.2 bins' hb.1.2.2
  have hd : (u.energyUnit ty).dim = (t.energyUnit ty).dim := by cases ty; exacts [h.1.1.symm, h.2.1.1.symm]
  rw [hd, ← hb.1.1] at b1 b2
  by_cases e : bins.unit.dim = (t.energyUnit ty).dim
  · have hi1 : NoInf (t.rows.map Bench.Event.theta) := by
      intro v hv
      obtain ⟨r, hr, rfl⟩ := List.mem_map.1 hv
      exact hi r hr
    have hi2 : NoInf (u.rows.map Bench.Event.theta) := by
      intro v hv
      obtain ⟨r', hr', rfl⟩ := List.mem_map.1 hv
      obtain ⟨r, hr, hrel⟩ : ∃ r ∈ t.rows, si t.theta r.theta = si u.theta r'.theta := by
        obtain ⟨i, hl, rfl⟩ := List.getElem_of_mem hr'
        have hl' : i < t.rows.length := by rw [h.2.2.2.length_eq]; exact hl
        exact ⟨_, List.getElem_mem hl', (List.forall₂_iff_get.1 h.2.2.2).2 i hl' hl |>.2.2⟩
      have h1 := hi r hr
      have p1 := h.2.2.1.2.1
      have p2 := h.2.2.1.2.2
      unfold si at hrel
      constructor
      · intro e; rw [e, scale_ninf p2] at hrel
        cases hx : r.theta <;> rw [hx] at hrel h1 <;> simp_all [scale_pinf p1]
      · intro e; rw [e, scale_pinf p2] at hrel
        cases hx : r.theta <;> rw [hx] at hrel h1 <;> simp_all [scale_ninf p1]
    have k1 : bins.val.map (si bins.unit) = bins'.val.map (si bins'.unit) :=
      List.forall₂_eq_eq_eq ▸ (List.forall₂_map_left_iff.2 (List.forall₂_map_right_iff.2 hb.2))
    have k2 : siRows t = siRows u := by
      unfold siRows
      apply List.forall₂_eq_eq_eq ▸ (List.forall₂_map_left_iff.2 (List.forall₂_map_right_iff.2 (h.2.2.2.imp ?_)))
      intro a b e
      rw [e.1, e.2.1, e.2.2]
    rw [a1 e, b1 e, ang_si ty qs t h.1.2.1 h.2.1.2.1 h.2.2.1.2.1 hi1 bins hb.1.2.1, ang_si ty qs u h.1.2.2 h.2.1.2.2 h.2.2.1.2.2 hi2 bins' hb.1.2.2, k1, k2]
  · rw [a2 e, b2 e]

/-! ## The hypotheses can be met -/

/-- the same event in two tables, with other units of energy and angle (a reconstructed energy in its own unit) -/
example : SameBench ⟨⟨⟨2, 1, -2, 0⟩, 1000⟩, ⟨⟨2, 1, -2, 0⟩, 1⟩, ⟨⟨0, 0, 0, 1⟩, 1⟩, [⟨.fin 2, .fin 3000, .fin 5⟩]⟩
    ⟨⟨⟨2, 1, -2, 0⟩, 1⟩, ⟨⟨2, 1, -2, 0⟩, 1000⟩, ⟨⟨0, 0, 0, 1⟩, 1 / 10⟩, [⟨.fin 2000, .fin 3, .fin 50⟩]⟩ := by
  refine ⟨⟨rfl, ?_, ?_⟩, ⟨rfl, ?_, ?_⟩, ⟨rfl, ?_, ?_⟩, List.Forall₂.cons ⟨?_, ?_, ?_⟩ List.Forall₂.nil⟩ <;> first | (show (0 : ℝ) < _; norm_num; done) | skip
  all_goals unfold si; simp only [FV.fin_mul_fin]; norm_num

/-- the same bins -/
example : SameL ⟨⟨⟨2, 1, -2, 0⟩, 1000⟩, [.fin 1, .fin 4, .pinf]⟩ ⟨⟨⟨2, 1, -2, 0⟩, 1⟩, [.fin 1000, .fin 4000, .pinf]⟩ := by
  refine ⟨⟨rfl, ?_, ?_⟩, List.Forall₂.cons ?_ (List.Forall₂.cons ?_ (List.Forall₂.cons ?_ List.Forall₂.nil))⟩ <;> first | (show (0 : ℝ) < _; norm_num; done) | skip
  all_goals unfold si; simp only [FV.fin_mul_fin]
  · norm_num
  · norm_num
  · rw [scale_pinf (by norm_num), scale_pinf (by norm_num)]

/-- an event of 2 TeV reconstructed with 3000 GeV has the relative error 1/2: the ratio of the columns is converted -/
example : (FV.fin ((1 : ℝ) / 1000) * (FV.fin 3000 / FV.fin 2) - .fin 1 : FV ℝ) = .fin (1 / 2) := by
  rw [FV.fin_div_fin _ _ (by norm_num), FV.fin_mul_fin, FV.fin_sub_fin]; norm_num

end Pyirf.Units
