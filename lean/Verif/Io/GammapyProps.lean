import Verif.Io.GammapyModel
import Verif.Io.GadfProps

/-!
# Properties of the gammapy export: C108, C109
-/
set_option linter.unusedSectionVars false
set_option linter.unusedSimpArgs false

namespace Pyirf.Io
open Pyirf Pyirf.Np

section
variable {K : Type} [Field K] [LinearOrder K] [IsStrictOrderedRing K]

/-! ## Specification -/

/-- Edges that describe at least one bin: any two of them in the same strict order. -/
def GoodEdges (l : List (FV K)) : Prop :=
  2 ≤ l.length ∧ (l.Pairwise (fun a b => FV.lt a b = true) ∨ l.Pairwise (fun a b => FV.lt b a = true))

/-- The axis `a` is called `name` and has the given edges in the given unit. -/
def AxisIs (a : MapAxis K) (name : String) (x : Arg K (List (FV K))) : Prop :=
  a.name = name ∧ a.unit = x.unit ∧ a.edges = x.data

/-- The data of `irf` are those of `x`, entry by entry, in the unit of `x` (a plain array counts as dimensionless);
a scalar stands for a constant. -/
def DataIs (irf : GammapyIrf K) (x : Arg K (ND (FV K))) (bins : List (Arg K (List (FV K)))) : Prop :=
  irf.data.shape = bins.map (fun b => b.data.length - 1) ∧ irf.unit = x.unit.getD unitOne ∧
  ∀ idx, ND.Valid irf.data.shape idx → irf.data.get idx = x.data.get (if x.data.shape = [] then [] else idx)

/-- The array has one entry per bin, axes in the given order, or is a scalar. -/
def ShapeFits (x : Arg K (ND (FV K))) (bins : List (Arg K (List (FV K)))) : Prop :=
  x.data.shape = bins.map (fun b => b.data.length - 1) ∨ x.data.shape = []

/-! ## Lemmas -/

theorem lt_trans' {a b c : FV K} (h1 : FV.lt a b = true) (h2 : FV.lt b c = true) : FV.lt a c = true := by
  cases a <;> cases b <;> cases c <;> simp_all [FV.lt]
  exact h1.trans h2

theorem strictInc_iff (l : List (FV K)) : strictInc l = true ↔ l.Pairwise (fun a b => FV.lt a b = true) := by
  have : ∀ l : List (FV K), strictInc l = true ↔ l.IsChain (fun a b => FV.lt a b = true) := by
    intro l
    induction l with
    | nil => simp [strictInc]
    | cons a l ih => cases l with
      | nil => simp [strictInc]
      | cons b l => rw [strictInc, Bool.and_eq_true, List.isChain_cons_cons, ih]
  have tr : IsTrans (FV K) (fun a b => FV.lt a b = true) := ⟨fun _ _ _ => lt_trans'⟩
  rw [this, List.isChain_iff_pairwise]

theorem strictDec_iff (l : List (FV K)) : strictDec l = true ↔ l.Pairwise (fun a b => FV.lt b a = true) := by
  have hgt : ∀ a b : FV K, FV.gt a b = FV.lt b a := fun a b => rfl
  have : ∀ l : List (FV K), strictDec l = true ↔ l.IsChain (fun a b => FV.lt b a = true) := by
    intro l
    induction l with
    | nil => simp [strictDec]
    | cons a l ih => cases l with
      | nil => simp [strictDec]
      | cons b l => rw [strictDec, Bool.and_eq_true, List.isChain_cons_cons, ih, hgt]
  have tr : IsTrans (FV K) (fun a b => FV.lt b a = true) := ⟨fun _ _ _ h1 h2 => lt_trans' h2 h1⟩
  rw [this, List.isChain_iff_pairwise]

theorem mapAxis_cases (x : Arg K (List (FV K))) (name : String) :
    (GoodEdges x.data ∧ mapAxisFromEdges x name = .ok ⟨name, x.unit, x.data⟩) ∨
    (¬ GoodEdges x.data ∧ mapAxisFromEdges x name = .error .valueError) := by
  unfold mapAxisFromEdges GoodEdges
  rw [← strictInc_iff, ← strictDec_iff]
  by_cases h1 : x.data.length < 2
  · right; exact ⟨fun h => by omega, if_pos h1⟩
  · rw [if_neg h1]
    by_cases h2 : (strictInc x.data || strictDec x.data) = true
    · left; exact ⟨⟨by omega, by simpa using h2⟩, if_pos h2⟩
    · right; exact ⟨fun h => h2 (by simpa using h.2), if_neg h2⟩

theorem gammapyIrf_cases (cls : String) (required : List String) (t : PhysUnit K) (axes : List (MapAxis K))
    (bins : List (Arg K (List (FV K)))) (x : Arg K (ND (FV K))) (hn : axes.map MapAxis.name = required)
    (hb : axes.map (fun a => a.edges.length - 1) = bins.map (fun b => b.data.length - 1)) :
    (ShapeFits x bins ∧ (x.unit.getD unitOne).dim = t.dim ∧
      ∃ irf, gammapyIrf cls required t axes x = .ok irf ∧ irf.cls = cls ∧ irf.axes = axes ∧ DataIs irf x bins) ∨
    (¬ (ShapeFits x bins ∧ (x.unit.getD unitOne).dim = t.dim) ∧ gammapyIrf cls required t axes x = .error .valueError) := by
  unfold gammapyIrf
  rw [if_neg (not_not.mpr hn)]
  simp only [hb]
  by_cases h1 : x.data.shape ≠ bins.map (fun b => b.data.length - 1) ∧ x.data.shape ≠ []
  · right
    exact ⟨fun h => h.1.elim h1.1 h1.2, if_pos h1⟩
  · rw [if_neg h1]
    by_cases h2 : (x.unit.getD unitOne).dim ≠ t.dim
    · right; exact ⟨fun h => h2 h.2, if_pos h2⟩
    · rw [if_neg h2]
      left
      have hs : ShapeFits x bins := by
        unfold ShapeFits
        by_contra hc
        exact h1 ⟨fun h => hc (Or.inl h), fun h => hc (Or.inr h)⟩
      refine ⟨hs, not_not.mp h2, _, rfl, rfl, rfl, ?_, rfl, ?_⟩
      · show (if x.data.shape = [] then _ else _ : ND (FV K)).shape = _
        by_cases h0 : x.data.shape = []
        · rw [if_pos h0]
        · rw [if_neg h0]; exact hs.resolve_right h0
      · intro idx _
        show (if x.data.shape = [] then _ else _ : ND (FV K)).get idx = _
        by_cases h0 : x.data.shape = []
        · rw [if_pos h0, if_pos h0]
        · rw [if_neg h0, if_neg h0]

/-- the result of an export: either everything fits, or the error follows -/
def Outcome (r : Except Err (GammapyIrf K)) (units : List (Option (PhysUnit K) × PhysUnit K)) (good : Prop)
    (cls : String) (names : List String) (bins : List (Arg K (List (FV K)))) (x : Arg K (ND (FV K))) : Prop :=
  (unitVerdict units = none ∧ good →
    ∃ irf, r = .ok irf ∧ irf.cls = cls ∧ List.Forall₂ (fun a nb => AxisIs a nb.1 nb.2) irf.axes (names.zip bins) ∧
      DataIs irf x bins) ∧
  (∀ e, unitVerdict units = some e → r = .error e) ∧
  (unitVerdict units = none ∧ ¬ good → r = .error .valueError)

theorem Outcome.unitError {r : Except Err (GammapyIrf K)} {units : List (Option (PhysUnit K) × PhysUnit K)} {good : Prop}
    {cls : String} {names : List String} {bins : List (Arg K (List (FV K)))} {x : Arg K (ND (FV K))} {e : Err}
    (v : unitVerdict units = some e) (hr : r = .error e) : Outcome r units good cls names bins x := by
  refine ⟨fun h => ?_, fun e' he => ?_, fun h => ?_⟩
  · rw [v] at h; cases h.1
  · rw [v] at he; rw [hr, Option.some.inj he]
  · rw [v] at h; cases h.1

theorem Outcome.bad {r : Except Err (GammapyIrf K)} {units : List (Option (PhysUnit K) × PhysUnit K)} {good : Prop}
    {cls : String} {names : List String} {bins : List (Arg K (List (FV K)))} {x : Arg K (ND (FV K))}
    (v : unitVerdict units = none) (hg : ¬ good) (hr : r = .error .valueError) : Outcome r units good cls names bins x :=
  ⟨fun h => absurd h.2 hg, fun e he => (by rw [v] at he; cases he), fun _ => hr⟩

theorem Outcome.fine {r : Except Err (GammapyIrf K)} {units : List (Option (PhysUnit K) × PhysUnit K)} {good : Prop}
    {cls : String} {names : List String} {bins : List (Arg K (List (FV K)))} {x : Arg K (ND (FV K))}
    (v : unitVerdict units = none) (hg : good) (irf : GammapyIrf K) (hr : r = .ok irf) (hc : irf.cls = cls)
    (ha : List.Forall₂ (fun a nb => AxisIs a nb.1 nb.2) irf.axes (names.zip bins)) (hd : DataIs irf x bins) :
    Outcome r units good cls names bins x :=
  ⟨fun _ => ⟨irf, hr, hc, ha, hd⟩, fun e he => (by rw [v] at he; cases he), fun h => absurd hg h.2⟩

/-- **C108** `create_effective_area_table_2d`: a unit error is raised for the first argument without unit or with the wrong
dimension. Otherwise the call succeeds exactly if both edge arrays describe bins and the array has the shape
(n_energy_bins, n_fov_offset_bins); the object has the axes energy_true and offset with the given edges, and the given data. -/
theorem C108_aeff (c : Consts K) (effectiveArea : Arg K (ND (FV K))) (trueEnergyBins fovOffsetBins : Arg K (List (FV K))) :
    Outcome (createEffectiveAreaTable2d c effectiveArea trueEnergyBins fovOffsetBins)
      [(effectiveArea.unit, m2), (trueEnergyBins.unit, teV c), (fovOffsetBins.unit, degree c)]
      (GoodEdges trueEnergyBins.data ∧ GoodEdges fovOffsetBins.data ∧ ShapeFits effectiveArea [trueEnergyBins, fovOffsetBins])
      "EffectiveAreaTable2D" ["energy_true", "offset"] [trueEnergyBins, fovOffsetBins] effectiveArea := by
  obtain ⟨u1, h1, d1, q1⟩ | ⟨e, q1, v1⟩ := quantityInput_cases effectiveArea (m2 : PhysUnit K)
  swap
  · exact .unitError (v1 _) (by rw [createEffectiveAreaTable2d, q1]; rfl)
  obtain ⟨u2, h2, d2, q2⟩ | ⟨e, q2, v2⟩ := quantityInput_cases trueEnergyBins (teV c : PhysUnit K)
  swap
  · exact .unitError (by rw [h1, unitVerdict, if_pos d1, v2]) (by rw [createEffectiveAreaTable2d, q1, q2]; rfl)
  obtain ⟨u3, h3, d3, q3⟩ | ⟨e, q3, v3⟩ := quantityInput_cases fovOffsetBins (degree c : PhysUnit K)
  swap
  · exact .unitError (by rw [h1, h2, unitVerdict, if_pos d1, unitVerdict, if_pos d2, v3])
      (by rw [createEffectiveAreaTable2d, q1, q2, q3]; rfl)
  have v : unitVerdict [(effectiveArea.unit, m2), (trueEnergyBins.unit, teV c), (fovOffsetBins.unit, degree c)] = none := by
    rw [h1, h2, h3, unitVerdict, if_pos d1, unitVerdict, if_pos d2, unitVerdict, if_pos d3, unitVerdict]
  have base : createEffectiveAreaTable2d c effectiveArea trueEnergyBins fovOffsetBins =
      (do let o ← mapAxisFromEdges fovOffsetBins "offset"
          let en ← mapAxisFromEdges trueEnergyBins "energy_true"
          effectiveAreaTable2D [en, o] effectiveArea) := by
    rw [createEffectiveAreaTable2d, q1, q2, q3]; rfl
  obtain ⟨g2, m2'⟩ | ⟨g2, m2'⟩ := mapAxis_cases fovOffsetBins "offset"
  swap
  · exact .bad v (fun h => g2 h.2.1) (by rw [base, m2']; rfl)
  obtain ⟨g1, m1'⟩ | ⟨g1, m1'⟩ := mapAxis_cases trueEnergyBins "energy_true"
  swap
  · exact .bad v (fun h => g1 h.1) (by rw [base, m2', m1']; rfl)
  have hr : createEffectiveAreaTable2d c effectiveArea trueEnergyBins fovOffsetBins =
      gammapyIrf "EffectiveAreaTable2D" ["energy_true", "offset"] m2
        [⟨"energy_true", trueEnergyBins.unit, trueEnergyBins.data⟩, ⟨"offset", fovOffsetBins.unit, fovOffsetBins.data⟩]
        effectiveArea := by
    rw [base, m2', m1']; rfl
  have dd : (effectiveArea.unit.getD unitOne).dim = (m2 : PhysUnit K).dim := by rw [h1]; exact d1
  obtain ⟨hs, _, irf, hirf, hc, ha, hd⟩ | ⟨hs, he⟩ := gammapyIrf_cases "EffectiveAreaTable2D" ["energy_true", "offset"] m2
        [⟨"energy_true", trueEnergyBins.unit, trueEnergyBins.data⟩, ⟨"offset", fovOffsetBins.unit, fovOffsetBins.data⟩]
        [trueEnergyBins, fovOffsetBins] effectiveArea rfl rfl
  · refine .fine v ⟨g1, g2, hs⟩ irf (hr.trans hirf) hc ?_ hd
    rw [ha]
    exact .cons ⟨rfl, rfl, rfl⟩ (.cons ⟨rfl, rfl, rfl⟩ .nil)
  · exact .bad v (fun h => hs ⟨h.2.2, dd⟩) (hr.trans he)

/-- **C108** `create_psf_3d`: the same for a PSF of shape (n_energy_bins, n_fov_offset_bins, n_source_offset_bins). -/
theorem C108_psf (c : Consts K) (psf : Arg K (ND (FV K))) (trueEnergyBins sourceOffsetBins fovOffsetBins : Arg K (List (FV K))) :
    Outcome (createPsf3d c psf trueEnergyBins sourceOffsetBins fovOffsetBins)
      [(psf.unit, perSr), (trueEnergyBins.unit, teV c), (sourceOffsetBins.unit, degree c), (fovOffsetBins.unit, degree c)]
      (GoodEdges trueEnergyBins.data ∧ GoodEdges fovOffsetBins.data ∧ GoodEdges sourceOffsetBins.data ∧
        ShapeFits psf [trueEnergyBins, fovOffsetBins, sourceOffsetBins])
      "PSF3D" ["energy_true", "offset", "rad"] [trueEnergyBins, fovOffsetBins, sourceOffsetBins] psf := by
  obtain ⟨u1, h1, d1, q1⟩ | ⟨e, q1, v1⟩ := quantityInput_cases psf (perSr : PhysUnit K)
  swap
  · exact .unitError (v1 _) (by rw [createPsf3d, q1]; rfl)
  obtain ⟨u2, h2, d2, q2⟩ | ⟨e, q2, v2⟩ := quantityInput_cases trueEnergyBins (teV c : PhysUnit K)
  swap
  · exact .unitError (by rw [h1, unitVerdict, if_pos d1, v2]) (by rw [createPsf3d, q1, q2]; rfl)
  obtain ⟨u3, h3, d3, q3⟩ | ⟨e, q3, v3⟩ := quantityInput_cases sourceOffsetBins (degree c : PhysUnit K)
  swap
  · exact .unitError (by rw [h1, h2, unitVerdict, if_pos d1, unitVerdict, if_pos d2, v3])
      (by rw [createPsf3d, q1, q2, q3]; rfl)
  obtain ⟨u4, h4, d4, q4⟩ | ⟨e, q4, v4⟩ := quantityInput_cases fovOffsetBins (degree c : PhysUnit K)
  swap
  · exact .unitError (by rw [h1, h2, h3, unitVerdict, if_pos d1, unitVerdict, if_pos d2, unitVerdict, if_pos d3, v4])
      (by rw [createPsf3d, q1, q2, q3, q4]; rfl)
  have v : unitVerdict [(psf.unit, perSr), (trueEnergyBins.unit, teV c), (sourceOffsetBins.unit, degree c),
      (fovOffsetBins.unit, degree c)] = none := by
    rw [h1, h2, h3, h4, unitVerdict, if_pos d1, unitVerdict, if_pos d2, unitVerdict, if_pos d3, unitVerdict, if_pos d4, unitVerdict]
  have base : createPsf3d c psf trueEnergyBins sourceOffsetBins fovOffsetBins =
      (do let o ← mapAxisFromEdges fovOffsetBins "offset"
          let en ← mapAxisFromEdges trueEnergyBins "energy_true"
          let r ← mapAxisFromEdges sourceOffsetBins "rad"
          psf3D [en, o, r] psf) := by
    rw [createPsf3d, q1, q2, q3, q4]; rfl
  obtain ⟨g2, m2'⟩ | ⟨g2, m2'⟩ := mapAxis_cases fovOffsetBins "offset"
  swap
  · exact .bad v (fun h => g2 h.2.1) (by rw [base, m2']; rfl)
  obtain ⟨g1, m1'⟩ | ⟨g1, m1'⟩ := mapAxis_cases trueEnergyBins "energy_true"
  swap
  · exact .bad v (fun h => g1 h.1) (by rw [base, m2', m1']; rfl)
  obtain ⟨g3, m3'⟩ | ⟨g3, m3'⟩ := mapAxis_cases sourceOffsetBins "rad"
  swap
  · exact .bad v (fun h => g3 h.2.2.1) (by rw [base, m2', m1', m3']; rfl)
  have hr : createPsf3d c psf trueEnergyBins sourceOffsetBins fovOffsetBins =
      gammapyIrf "PSF3D" ["energy_true", "offset", "rad"] perSr
        [⟨"energy_true", trueEnergyBins.unit, trueEnergyBins.data⟩, ⟨"offset", fovOffsetBins.unit, fovOffsetBins.data⟩,
         ⟨"rad", sourceOffsetBins.unit, sourceOffsetBins.data⟩] psf := by
    rw [base, m2', m1', m3']; rfl
  have dd : (psf.unit.getD unitOne).dim = (perSr : PhysUnit K).dim := by rw [h1]; exact d1
  obtain ⟨hs, _, irf, hirf, hc, ha, hd⟩ | ⟨hs, he⟩ := gammapyIrf_cases "PSF3D" ["energy_true", "offset", "rad"] perSr
        [⟨"energy_true", trueEnergyBins.unit, trueEnergyBins.data⟩, ⟨"offset", fovOffsetBins.unit, fovOffsetBins.data⟩,
         ⟨"rad", sourceOffsetBins.unit, sourceOffsetBins.data⟩]
        [trueEnergyBins, fovOffsetBins, sourceOffsetBins] psf rfl rfl
  · refine .fine v ⟨g1, g2, g3, hs⟩ irf (hr.trans hirf) hc ?_ hd
    rw [ha]
    exact .cons ⟨rfl, rfl, rfl⟩ (.cons ⟨rfl, rfl, rfl⟩ (.cons ⟨rfl, rfl, rfl⟩ .nil))
  · exact .bad v (fun h => hs ⟨h.2.2.2, dd⟩) (hr.trans he)

/-- **C108** `create_energy_dispersion_2d`: the same for a migration matrix of shape
(n_energy_bins, n_migration_bins, n_fov_offset_bins); a matrix with a unit that is not dimensionless raises ValueError. -/
theorem C108_edisp (c : Consts K) (energyDispersion : Arg K (ND (FV K))) (trueEnergyBins migrationBins fovOffsetBins : Arg K (List (FV K))) :
    Outcome (createEnergyDispersion2d c energyDispersion trueEnergyBins migrationBins fovOffsetBins)
      [(trueEnergyBins.unit, teV c), (fovOffsetBins.unit, degree c)]
      (GoodEdges trueEnergyBins.data ∧ GoodEdges migrationBins.data ∧ GoodEdges fovOffsetBins.data ∧
        ShapeFits energyDispersion [trueEnergyBins, migrationBins, fovOffsetBins] ∧
        ∀ un, energyDispersion.unit = some un → un.dim = Dim.one)
      "EnergyDispersion2D" ["energy_true", "migra", "offset"] [trueEnergyBins, migrationBins, fovOffsetBins] energyDispersion := by
  obtain ⟨u2, h2, d2, q2⟩ | ⟨e, q2, v2⟩ := quantityInput_cases trueEnergyBins (teV c : PhysUnit K)
  swap
  · exact .unitError (v2 _) (by rw [createEnergyDispersion2d, q2]; rfl)
  obtain ⟨u4, h4, d4, q4⟩ | ⟨e, q4, v4⟩ := quantityInput_cases fovOffsetBins (degree c : PhysUnit K)
  swap
  · exact .unitError (by rw [h2, unitVerdict, if_pos d2, v4]) (by rw [createEnergyDispersion2d, q2, q4]; rfl)
  have v : unitVerdict [(trueEnergyBins.unit, teV c), (fovOffsetBins.unit, degree c)] = none := by
    rw [h2, h4, unitVerdict, if_pos d2, unitVerdict, if_pos d4, unitVerdict]
  have base : createEnergyDispersion2d c energyDispersion trueEnergyBins migrationBins fovOffsetBins =
      (do let o ← mapAxisFromEdges fovOffsetBins "offset"
          let en ← mapAxisFromEdges trueEnergyBins "energy_true"
          let r ← mapAxisFromEdges migrationBins "migra"
          energyDispersion2D [en, r, o] energyDispersion) := by
    rw [createEnergyDispersion2d, q2, q4]; rfl
  obtain ⟨g2, m2'⟩ | ⟨g2, m2'⟩ := mapAxis_cases fovOffsetBins "offset"
  swap
  · exact .bad v (fun h => g2 h.2.2.1) (by rw [base, m2']; rfl)
  obtain ⟨g1, m1'⟩ | ⟨g1, m1'⟩ := mapAxis_cases trueEnergyBins "energy_true"
  swap
  · exact .bad v (fun h => g1 h.1) (by rw [base, m2', m1']; rfl)
  obtain ⟨g3, m3'⟩ | ⟨g3, m3'⟩ := mapAxis_cases migrationBins "migra"
  swap
  · exact .bad v (fun h => g3 h.2.1) (by rw [base, m2', m1', m3']; rfl)
  have hr : createEnergyDispersion2d c energyDispersion trueEnergyBins migrationBins fovOffsetBins =
      gammapyIrf "EnergyDispersion2D" ["energy_true", "migra", "offset"] unitOne
        [⟨"energy_true", trueEnergyBins.unit, trueEnergyBins.data⟩, ⟨"migra", migrationBins.unit, migrationBins.data⟩,
         ⟨"offset", fovOffsetBins.unit, fovOffsetBins.data⟩] energyDispersion := by
    rw [base, m2', m1', m3']; rfl
  have dd : (energyDispersion.unit.getD unitOne).dim = (unitOne : PhysUnit K).dim ↔
      ∀ un, energyDispersion.unit = some un → un.dim = Dim.one := by
    cases hu : energyDispersion.unit with
    | none => exact ⟨fun _ un h => (by cases h), fun _ => rfl⟩
    | some w => exact ⟨fun h un hw => (by cases hw; exact h), fun h => h w rfl⟩
  obtain ⟨hs, hdim, irf, hirf, hc, ha, hd⟩ | ⟨hs, he⟩ :=
      gammapyIrf_cases "EnergyDispersion2D" ["energy_true", "migra", "offset"] unitOne
        [⟨"energy_true", trueEnergyBins.unit, trueEnergyBins.data⟩, ⟨"migra", migrationBins.unit, migrationBins.data⟩,
         ⟨"offset", fovOffsetBins.unit, fovOffsetBins.data⟩]
        [trueEnergyBins, migrationBins, fovOffsetBins] energyDispersion rfl rfl
  · refine .fine v ⟨g1, g3, g2, hs, dd.mp hdim⟩ irf (hr.trans hirf) hc ?_ hd
    rw [ha]
    exact .cons ⟨rfl, rfl, rfl⟩ (.cons ⟨rfl, rfl, rfl⟩ (.cons ⟨rfl, rfl, rfl⟩ .nil))
  · exact .bad v (fun h => hs ⟨h.2.2.2.1, dd.mpr h.2.2.2.2⟩) (hr.trans he)

/-! ## C109: both exports describe the same IRF -/

/-- The columns `axis_LO`, `axis_HI` and the gammapy axis describe the same bins. -/
def SameAxis (h : Hdu K) (axis : String) (a : MapAxis K) : Prop :=
  ∃ lo hi, h.column? (axis ++ "_LO") = some lo ∧ h.column? (axis ++ "_HI") = some hi ∧
    lo.data.length = a.edges.length - 1 ∧ hi.data.length = a.edges.length - 1 ∧
    ∀ i e e', a.edges[i]? = some e → a.edges[i + 1]? = some e' →
      (∃ v, lo.read [i] = some v ∧ si lo.unit v = si a.unit e) ∧ ∃ v, hi.read [i] = some v ∧ si hi.unit v = si a.unit e'

/-- The data column has the shape of the gammapy data and at each index the same physical quantity. -/
def SameData (h : Hdu K) (name : String) (irf : GammapyIrf K) : Prop :=
  ∃ col, h.column? name = some col ∧ col.dims = irf.data.shape ∧
    ∀ idx, ND.Valid irf.data.shape idx → ∃ v, col.read idx = some v ∧ si col.unit v = si (some irf.unit) (irf.data.get idx)

theorem sameAxis_of {h : Hdu K} {axis : String} {u : Option (PhysUnit K)} {x : Arg K (List (FV K))} {a : MapAxis K} {name : String}
    (hs : StoresAxis h axis u x) (ha : AxisIs a name x) : SameAxis h axis a := by
  obtain ⟨lo, hi, h1, h2, hu1, hu2, _, _, l1, l2, hr⟩ := hs
  obtain ⟨_, a2, a3⟩ := ha
  refine ⟨lo, hi, h1, h2, by rw [a3]; exact l1, by rw [a3]; exact l2, ?_⟩
  intro i e e' he he'
  rw [a3] at he he'
  rw [hu1, hu2, a2]
  exact hr i e e' he he'

theorem sameData_of {h : Hdu K} {name : String} {t : PhysUnit K} {x : Arg K (ND (FV K))} {irf : GammapyIrf K}
    {bins : List (Arg K (List (FV K)))} (hs : StoresData h name t x) (hd : DataIs irf x bins)
    (hx : x.data.shape = bins.map (fun b => b.data.length - 1)) (hne : bins ≠ []) : SameData h name irf := by
  obtain ⟨col, h1, hu, hdims, _, hr⟩ := hs
  obtain ⟨d1, d2, d3⟩ := hd
  have h0 : x.data.shape ≠ [] := by rw [hx]; simpa using hne
  refine ⟨col, h1, by rw [hdims, hx, d1], ?_⟩
  intro idx hidx
  have hg := d3 idx hidx
  rw [if_neg h0] at hg
  rw [d1, ← hx] at hidx
  obtain ⟨v, hv, hve⟩ := hr idx hidx
  refine ⟨v, hv, ?_⟩
  rw [hu, hve, hg, d2]
  cases x.unit with
  | none => simp [si, unitOne]
  | some un => rfl

theorem Outcome.success {r : Except Err (GammapyIrf K)} {units : List (Option (PhysUnit K) × PhysUnit K)} {good : Prop}
    {cls : String} {names : List String} {bins : List (Arg K (List (FV K)))} {x : Arg K (ND (FV K))} {irf : GammapyIrf K}
    (h : Outcome r units good cls names bins x) (hr : r = .ok irf) :
    good ∧ List.Forall₂ (fun a nb => AxisIs a nb.1 nb.2) irf.axes (names.zip bins) ∧ DataIs irf x bins := by
  obtain ⟨h1, h2, h3⟩ := h
  cases hv : unitVerdict units with
  | some e => rw [h2 e hv] at hr; cases hr
  | none =>
    by_cases hg : good
    · obtain ⟨irf', hr', _, ha, hd⟩ := h1 ⟨hv, hg⟩
      rw [hr'] at hr
      cases hr
      exact ⟨hg, ha, hd⟩
    · rw [h3 ⟨hv, hg⟩] at hr; cases hr

/-- **C109** The effective area exported to gammapy and the GADF HDU written from the same (not scalar) arguments agree. -/
theorem C109_aeff (c : Consts K) (hE : 0 < c.eV) (hD : 0 < c.deg) (ctx : Ctx) (effectiveArea : Arg K (ND (FV K)))
    (trueEnergyBins fovOffsetBins : Arg K (List (FV K))) (pointLike : Bool) (h : Hdu K) (irf : GammapyIrf K)
    (hh : createAeff2dHdu c ctx effectiveArea trueEnergyBins fovOffsetBins pointLike = .ok h)
    (hg : createEffectiveAreaTable2d c effectiveArea trueEnergyBins fovOffsetBins = .ok irf) (hns : effectiveArea.data.shape ≠ []) :
    ∃ en off, irf.axes = [en, off] ∧ en.name = "energy_true" ∧ off.name = "offset" ∧
      SameAxis h "ENERG" en ∧ SameAxis h "THETA" off ∧ SameData h "EFFAREA" irf := by
  obtain ⟨hgood, ha, hd⟩ := (C108_aeff c effectiveArea trueEnergyBins fovOffsetBins).success hg
  obtain ⟨_, s1, s2, sd, _⟩ := C67_aeff c hE hD ctx effectiveArea trueEnergyBins fovOffsetBins pointLike h hh
  obtain ⟨en, l1, a1, ha', e1⟩ := List.forall₂_cons_right_iff.mp ha
  obtain ⟨off, l2, a2, ha'', e2⟩ := List.forall₂_cons_right_iff.mp ha'
  have e3 := List.forall₂_nil_right_iff.mp ha''
  subst e3 e2
  exact ⟨en, off, e1, a1.1, a2.1, sameAxis_of s1 a1, sameAxis_of s2 a2,
    sameData_of sd hd (hgood.2.2.resolve_right hns) (by simp)⟩

/-- **C109** The same for the PSF. -/
theorem C109_psf (c : Consts K) (hE : 0 < c.eV) (hD : 0 < c.deg) (ctx : Ctx) (psf : Arg K (ND (FV K)))
    (trueEnergyBins sourceOffsetBins fovOffsetBins : Arg K (List (FV K))) (h : Hdu K) (irf : GammapyIrf K)
    (hh : createPsfTableHdu c ctx psf trueEnergyBins sourceOffsetBins fovOffsetBins = .ok h)
    (hg : createPsf3d c psf trueEnergyBins sourceOffsetBins fovOffsetBins = .ok irf) (hns : psf.data.shape ≠ []) :
    ∃ en off rad, irf.axes = [en, off, rad] ∧ en.name = "energy_true" ∧ off.name = "offset" ∧ rad.name = "rad" ∧
      SameAxis h "ENERG" en ∧ SameAxis h "THETA" off ∧ SameAxis h "RAD" rad ∧ SameData h "RPSF" irf := by
  obtain ⟨hgood, ha, hd⟩ := (C108_psf c psf trueEnergyBins sourceOffsetBins fovOffsetBins).success hg
  obtain ⟨_, s1, s2, s3, sd, _⟩ := C67_psf c hE hD ctx psf trueEnergyBins sourceOffsetBins fovOffsetBins h hh
  obtain ⟨en, l1, a1, ha', e1⟩ := List.forall₂_cons_right_iff.mp ha
  obtain ⟨off, l2, a2, ha'', e2⟩ := List.forall₂_cons_right_iff.mp ha'
  obtain ⟨rad, l3, a3, ha3, e3⟩ := List.forall₂_cons_right_iff.mp ha''
  have e4 := List.forall₂_nil_right_iff.mp ha3
  subst e4 e3 e2
  exact ⟨en, off, rad, e1, a1.1, a2.1, a3.1, sameAxis_of s1 a1, sameAxis_of s2 a2, sameAxis_of s3 a3,
    sameData_of sd hd (hgood.2.2.2.resolve_right hns) (by simp)⟩

/-- **C109** The same for the energy dispersion. -/
theorem C109_edisp (c : Consts K) (hE : 0 < c.eV) (hD : 0 < c.deg) (ctx : Ctx) (energyDispersion : Arg K (ND (FV K)))
    (trueEnergyBins migrationBins fovOffsetBins : Arg K (List (FV K))) (pointLike : Bool) (h : Hdu K) (irf : GammapyIrf K)
    (hh : createEnergyDispersionHdu c ctx energyDispersion trueEnergyBins migrationBins fovOffsetBins pointLike = .ok h)
    (hg : createEnergyDispersion2d c energyDispersion trueEnergyBins migrationBins fovOffsetBins = .ok irf)
    (hns : energyDispersion.data.shape ≠ []) :
    ∃ en mig off, irf.axes = [en, mig, off] ∧ en.name = "energy_true" ∧ mig.name = "migra" ∧ off.name = "offset" ∧
      SameAxis h "ENERG" en ∧ SameAxis h "MIGRA" mig ∧ SameAxis h "THETA" off ∧ SameData h "MATRIX" irf := by
  obtain ⟨hgood, ha, hd⟩ := (C108_edisp c energyDispersion trueEnergyBins migrationBins fovOffsetBins).success hg
  obtain ⟨_, s1, s2, s3, sd, _⟩ := C67_edisp c hE hD ctx energyDispersion trueEnergyBins migrationBins fovOffsetBins pointLike h hh
  obtain ⟨en, l1, a1, ha', e1⟩ := List.forall₂_cons_right_iff.mp ha
  obtain ⟨mig, l2, a2, ha'', e2⟩ := List.forall₂_cons_right_iff.mp ha'
  obtain ⟨off, l3, a3, ha3, e3⟩ := List.forall₂_cons_right_iff.mp ha''
  have e4 := List.forall₂_nil_right_iff.mp ha3
  subst e4 e3 e2
  exact ⟨en, mig, off, e1, a1.1, a2.1, a3.1, sameAxis_of s1 a1, sameAxis_of s2 a2, sameAxis_of s3 a3,
    sameData_of sd hd (hgood.2.2.2.1.resolve_right hns) (by simp)⟩

end

/-! ## Satisfiability -/

/-- The effective area of shape (2, 1) of the GADF example is accepted by both exports. -/
example : (∃ irf, createEffectiveAreaTable2d exConsts exArea exEnergy exOffset = .ok irf) ∧
    (∃ h, createAeff2dHdu exConsts exCtx exArea exEnergy exOffset true = .ok h) ∧ exArea.data.shape ≠ [] := by
  refine ⟨?_, ⟨_, aeff_ok exConsts exCtx exArea exEnergy exOffset true m2 (teV exConsts) (degree exConsts) rfl rfl rfl rfl rfl rfl⟩,
    by simp [exArea]⟩
  have h := (C108_aeff exConsts exArea exEnergy exOffset).1 ⟨rfl, ⟨by simp [exEnergy], Or.inl ?_⟩, ⟨by simp [exOffset], Or.inl ?_⟩,
    Or.inl rfl⟩
  · obtain ⟨irf, h, _⟩ := h
    exact ⟨irf, h⟩
  · simp only [exEnergy]; rw [← strictInc_iff]; simp [strictInc]; norm_num
  · simp only [exOffset]; rw [← strictInc_iff]; simp [strictInc]

/-- a transposed array is rejected -/
example : createEffectiveAreaTable2d exConsts ⟨some m2, ⟨[1, 2], fun _ => .fin 1⟩⟩ exEnergy exOffset = .error .valueError := by
  refine (C108_aeff exConsts ⟨some m2, ⟨[1, 2], fun _ => .fin 1⟩⟩ exEnergy exOffset).2.2 ⟨rfl, ?_⟩
  rintro ⟨_, _, h | h⟩
  · simp [exEnergy, exOffset] at h
  · simp at h

end Pyirf.Io
