import Verif.Units.Lemmas

/-!
# C151: instrument responses do not depend on the units of the arguments

`c` holds the conversion constants (eV in J, degree in radian), which are positive. The functions with units equal the functions of `Verif/Irf/Model.lean` on the same quantities in TeV, m, s, radian, so
all properties of those hold for every unit.
-/
set_option linter.unusedSectionVars false
set_option linter.unusedSimpArgs false

namespace Pyirf.Units
open Pyirf Pyirf.Np Pyirf.Io Pyirf.Utils Pyirf.Simulations Pyirf.Irf Pyirf.Binning
open Pyirf.Cuts (scale_pinf scale_ninf scale_scale isNan_scale lt_scale le_scale)

/-! ## Specification -/

/-- The conversion constants are positive. -/
def Consts.Pos (c : Consts ℝ) : Prop := 0 < c.eV ∧ 0 < c.deg

/-- dimension of an energy -/
def dimEnergy : Dim := ⟨2, 1, -2, 0⟩
/-- dimension of an angle -/
def dimAngle : Dim := ⟨0, 0, 0, 1⟩
/-- dimension of a length -/
def dimLength : Dim := ⟨1, 0, 0, 0⟩
/-- dimension of a time -/
def dimTime : Dim := ⟨0, 0, 1, 0⟩

/-- the number in SI units -/
noncomputable def si (un : PhysUnit ℝ) (x : FV ℝ) : FV ℝ := .fin un.scale * x

/-- Two arrays are the same quantities, given in two units. -/
def Same {n : ℕ} (x y : Q (Fin n → FV ℝ)) : Prop := x.unit.dim = y.unit.dim ∧ 0 < x.unit.scale ∧ 0 < y.unit.scale ∧ ∀ i, si x.unit (x.val i) = si y.unit (y.val i)
/-- the same for finite numbers -/
def SameR {n : ℕ} (x y : Q (Fin n → ℝ)) : Prop := x.unit.dim = y.unit.dim ∧ 0 < x.unit.scale ∧ 0 < y.unit.scale ∧ ∀ i, x.unit.scale * x.val i = y.unit.scale * y.val i
/-- the same for one number -/
def Same1 (x y : Q ℝ) : Prop := x.unit.dim = y.unit.dim ∧ 0 < x.unit.scale ∧ 0 < y.unit.scale ∧ x.unit.scale * x.val = y.unit.scale * y.val
/-- Two units of the same dimension. -/
def SameU (x y : PhysUnit ℝ) : Prop := x.dim = y.dim ∧ 0 < x.scale ∧ 0 < y.scale

/-- Two tables with the same events, whose columns have other units. -/
def SameReco (t u : RecoTable) : Prop :=
  SameU t.trueEnergy u.trueEnergy ∧ SameU t.recoEnergy u.recoEnergy ∧ SameU t.offset u.offset ∧ SameU t.theta u.theta ∧
  List.Forall₂ (fun r r' : RecoEvent => si t.trueEnergy r.trueEnergy = si u.trueEnergy r'.trueEnergy ∧ si t.recoEnergy r.recoEnergy = si u.recoEnergy r'.recoEnergy ∧
    si t.offset r.offset = si u.offset r'.offset ∧ si t.theta r.theta = si u.theta r'.theta) t.rows u.rows
/-- Two tables with the same background events, whose columns have other units. -/
def SameBackground (t u : BackgroundTable) : Prop :=
  SameU t.energy u.energy ∧ SameU t.offset u.offset ∧ SameU t.lon u.lon ∧ SameU t.lat u.lat ∧
  List.Forall₂ (fun r r' : BackgroundEvent => si t.energy r.energy = si u.energy r'.energy ∧ si t.offset r.offset = si u.offset r'.offset ∧
    si t.lon r.lon = si u.lon r'.lon ∧ si t.lat r.lat = si u.lat r'.lat ∧ r.weight = r'.weight) t.rows u.rows

/-- The events in TeV and radian. -/
noncomputable def RecoTable.si (c : Consts ℝ) (t : RecoTable) : List RecoEvent :=
  t.rows.map fun r => ⟨conv t.trueEnergy (teV c) r.trueEnergy, conv t.recoEnergy (teV c) r.recoEnergy, conv t.offset radian r.offset, conv t.theta radian r.theta⟩
/-- The events in TeV and radian. -/
noncomputable def BackgroundTable.si (c : Consts ℝ) (t : BackgroundTable) : List BackgroundEvent :=
  t.rows.map fun r => ⟨conv t.energy (teV c) r.energy, conv t.offset radian r.offset, conv t.lon radian r.lon, conv t.lat radian r.lat, r.weight⟩
/-- Edges in another unit. -/
noncomputable def Q.inUnit {n : ℕ} (x : Q (Fin n → FV ℝ)) (target : PhysUnit ℝ) : Fin n → FV ℝ := fun i => conv x.unit target (x.val i)
/-- Finite edges in another unit. -/
noncomputable def Q.realsIn {n : ℕ} (x : Q (Fin n → ℝ)) (target : PhysUnit ℝ) : Fin n → ℝ := fun i => x.unit.scale / target.scale * x.val i

/-! ## Lemmas -/

theorem checkDim_bind {α : Type} (a b : PhysUnit ℝ) (k : Unit → Except Err α) : (checkDim a b >>= k) = if a.dim = b.dim then k () else .error .unitsError := by
  unfold checkDim; split_ifs <;> rfl
theorem edges_bind {α : Type} {n : ℕ} (x : Q (Fin n → FV ℝ)) (b : PhysUnit ℝ) (k : (Fin n → FV ℝ) → Except Err α) :
    (x.edges b >>= k) = if x.unit.dim = b.dim then k (x.inUnit b) else .error .unitsError := by
  unfold Q.edges; split_ifs <;> rfl
theorem reals_bind {α : Type} {n : ℕ} (x : Q (Fin n → ℝ)) (b : PhysUnit ℝ) (k : (Fin n → ℝ) → Except Err α) :
    (x.reals b >>= k) = if x.unit.dim = b.dim then k (x.realsIn b) else .error .unitsError := by
  unfold Q.reals; split_ifs <;> rfl

variable {c : Consts ℝ} (hc : Consts.Pos c)
include hc

theorem teV_pos : 0 < (teV c).scale := by have := hc.1; show 0 < 10 ^ 12 * c.eV; positivity
theorem degree_pos : 0 < (degree c).scale := hc.2

theorem conv_si {target : PhysUnit ℝ} (ht : 0 < target.scale) (un : PhysUnit ℝ) (x : FV ℝ) : conv un target x = .fin (1 / target.scale) * si un x := by
  unfold conv si
  rw [scale_scale (by positivity)]
  congr 2; field_simp

theorem conv_congr {target a b : PhysUnit ℝ} (ht : 0 < target.scale) {x y : FV ℝ} (h : si a x = si b y) : conv a target x = conv b target y := by
  rw [conv_si hc ht, conv_si hc ht, h]

theorem conv_rad (un : PhysUnit ℝ) (x : FV ℝ) : conv un radian x = .fin c.deg * conv un (degree c) x := by
  unfold conv
  rw [scale_scale hc.2]
  congr 2
  show un.scale / 1 = c.deg * (un.scale / c.deg)
  have := hc.2.ne'
  field_simp

theorem Same.inUnit {n : ℕ} {x y : Q (Fin n → FV ℝ)} (h : Same x y) {target : PhysUnit ℝ} (ht : 0 < target.scale) : x.inUnit target = y.inUnit target := by
  funext i; exact conv_congr hc ht (h.2.2.2 i)

theorem SameR.realsIn {n : ℕ} {x y : Q (Fin n → ℝ)} (h : SameR x y) {target : PhysUnit ℝ} (ht : 0 < target.scale) : x.realsIn target = y.realsIn target := by
  funext i
  unfold Q.realsIn
  rw [div_mul_eq_mul_div, div_mul_eq_mul_div, h.2.2.2 i]

theorem inUnit_rad {n : ℕ} (x : Q (Fin n → FV ℝ)) : x.inUnit radian = fun i => .fin c.deg * x.inUnit (degree c) i := by
  funext i; exact conv_rad hc _ _

theorem realsIn_rad {n : ℕ} (x : Q (Fin (n + 1) → ℝ)) : finEdges (x.realsIn radian) = fun i => .fin c.deg * finEdges (x.realsIn (degree c)) i := by
  funext i
  show FV.fin (x.unit.scale / 1 * x.val i) = FV.fin (c.deg * (x.unit.scale / c.deg * x.val i))
  have := hc.2.ne'
  congr 1
  field_simp

omit hc in
theorem SameReco.si {t u : RecoTable} (hc : Consts.Pos c) (h : SameReco t u) : t.si c = u.si c := by
  obtain ⟨-, -, -, -, h5⟩ := h
  unfold RecoTable.si
  apply List.forall₂_eq_eq_eq ▸ (List.forall₂_map_left_iff.2 (List.forall₂_map_right_iff.2 (h5.imp ?_)))
  rintro r r' ⟨e1, e2, e3, e4⟩
  rw [conv_congr hc (teV_pos hc) e1, conv_congr hc (teV_pos hc) e2, conv_congr hc one_pos e3, conv_congr hc one_pos e4]

omit hc in
theorem SameBackground.si {t u : BackgroundTable} (hc : Consts.Pos c) (h : SameBackground t u) : t.si c = u.si c := by
  obtain ⟨-, -, -, -, h5⟩ := h
  unfold BackgroundTable.si
  apply List.forall₂_eq_eq_eq ▸ (List.forall₂_map_left_iff.2 (List.forall₂_map_right_iff.2 (h5.imp ?_)))
  rintro r r' ⟨e1, e2, e3, e4, e5⟩
  rw [conv_congr hc (teV_pos hc) e1, conv_congr hc one_pos e2, conv_congr hc one_pos e3, conv_congr hc one_pos e4, e5]

/-! ## Energy dispersion -/

/-- **C151** (energy dispersion) With the right physical dimensions the function returns what it returns for the same quantities in TeV and radian; otherwise it raises a UnitsError, whatever the events. -/
theorem C151_energy_dispersion_si {n m k : ℕ} (big : ℝ) (t : RecoTable) (hT : 0 < t.trueEnergy.scale) (hR : 0 < t.recoEnergy.scale) (trueEnergyBins : Q (Fin (n + 1) → FV ℝ))
    (fovOffsetBins : Q (Fin (k + 1) → FV ℝ)) (migrationBins : Fin (m + 1) → FV ℝ) :
    (t.trueEnergy.dim = dimEnergy ∧ t.recoEnergy.dim = dimEnergy ∧ t.offset.dim = dimAngle ∧ trueEnergyBins.unit.dim = dimEnergy ∧ fovOffsetBins.unit.dim = dimAngle →
      energyDispersionQ c big t trueEnergyBins fovOffsetBins migrationBins = energyDispersion big (t.si c) (trueEnergyBins.inUnit (teV c)) (fovOffsetBins.inUnit radian) migrationBins) ∧
    (¬ (t.trueEnergy.dim = dimEnergy ∧ t.recoEnergy.dim = dimEnergy ∧ t.offset.dim = dimAngle ∧ trueEnergyBins.unit.dim = dimEnergy ∧ fovOffsetBins.unit.dim = dimAngle) →
      energyDispersionQ c big t trueEnergyBins fovOffsetBins migrationBins = .error .unitsError) := by
  have hratio : Dim.mul t.recoEnergy.dim (Dim.inv t.trueEnergy.dim) = Dim.one ↔ t.recoEnergy.dim = t.trueEnergy.dim := by
    cases hr : t.recoEnergy.dim; cases ht : t.trueEnergy.dim
    simp only [Dim.mul, Dim.inv, Dim.one, Dim.mk.injEq]
    constructor
    · rintro ⟨a, b, d, e⟩; exact ⟨by omega, by omega, by omega, by omega⟩
    · rintro ⟨a, b, d, e⟩; exact ⟨by omega, by omega, by omega, by omega⟩
  constructor
  · rintro ⟨h1, h2, h3, h4, h5⟩
    have hr : Dim.mul t.recoEnergy.dim (Dim.inv t.trueEnergy.dim) = (unitOne : PhysUnit ℝ).dim := hratio.2 (h2.trans h1.symm)
    unfold energyDispersionQ energyDispersion checkDim Q.edges
    simp only [if_pos hr, if_pos (show t.trueEnergy.dim = (teV c).dim from h1), if_pos (show t.offset.dim = (degree c).dim from h3),
      if_pos (show trueEnergyBins.unit.dim = (teV c).dim from h4), if_pos (show fovOffsetBins.unit.dim = (degree c).dim from h5), bind, Except.bind]
    have := histogram3d_scale one_pos one_pos hc.2 (trueEnergyBins.inUnit (teV c)) migrationBins (fovOffsetBins.inUnit (degree c))
      (t.rows.map fun r => (conv t.trueEnergy (teV c) r.trueEnergy, FV.fin (t.recoEnergy.scale / t.trueEnergy.scale) * (r.recoEnergy / r.trueEnergy), conv t.offset (degree c) r.offset, 1))
    simp only [one_scale, ← inUnit_rad hc, List.map_map, Function.comp_def, ← conv_rad hc] at this
    have e : (t.si c).map (fun e => (e.trueEnergy, e.recoEnergy / e.trueEnergy, e.offset, (1 : ℝ))) =
        t.rows.map fun r => (conv t.trueEnergy (teV c) r.trueEnergy, FV.fin (t.recoEnergy.scale / t.trueEnergy.scale) * (r.recoEnergy / r.trueEnergy), conv t.offset radian r.offset, 1) := by
      unfold RecoTable.si
      rw [List.map_map]
      apply List.map_congr_left
      intro r _
      simp only [Function.comp]
      have hp := teV_pos hc
      unfold conv
      rw [mul_div_mul (by positivity) (by positivity)]
      congr 4
      field_simp
    rw [e, this]
    unfold Q.inUnit
    generalize histogram3d (K := ℝ) _ _ _ _ = r
    cases r <;> rfl
  · intro h
    unfold energyDispersionQ
    simp only [checkDim_bind, edges_bind, show (unitOne : PhysUnit ℝ).dim = Dim.one from rfl, hratio, show (teV c).dim = dimEnergy from rfl, show (degree c).dim = dimAngle from rfl]
    split_ifs with h1 h2 h3 h4 h5
    · exact absurd ⟨h2, h1.trans h2, h3, h4, h5⟩ h
    all_goals rfl


/-- **C151** (energy dispersion, same quantities) -/
theorem C151_energy_dispersion {n m k : ℕ} (big : ℝ) {t u : RecoTable} (h : SameReco t u) {trueEnergyBins trueEnergyBins' : Q (Fin (n + 1) → FV ℝ)} (h1 : Same trueEnergyBins trueEnergyBins')
    {fovOffsetBins fovOffsetBins' : Q (Fin (k + 1) → FV ℝ)} (h2 : Same fovOffsetBins fovOffsetBins') (migrationBins : Fin (m + 1) → FV ℝ) :
    energyDispersionQ c big t trueEnergyBins fovOffsetBins migrationBins = energyDispersionQ c big u trueEnergyBins' fovOffsetBins' migrationBins := by
  obtain ⟨a1, a2⟩ := C151_energy_dispersion_si hc big t h.1.2.1 h.2.1.2.1 trueEnergyBins fovOffsetBins migrationBins
  obtain ⟨b1, b2⟩ := C151_energy_dispersion_si hc big u h.1.2.2 h.2.1.2.2 trueEnergyBins' fovOffsetBins' migrationBins
  rw [← h.1.1, ← h.2.1.1, ← h.2.2.1.1, ← h1.1, ← h2.1] at b1 b2
  by_cases hd : t.trueEnergy.dim = dimEnergy ∧ t.recoEnergy.dim = dimEnergy ∧ t.offset.dim = dimAngle ∧ trueEnergyBins.unit.dim = dimEnergy ∧ fovOffsetBins.unit.dim = dimAngle
  · rw [a1 hd, b1 hd, h.si hc, h1.inUnit hc (teV_pos hc), h2.inUnit hc one_pos]
  · rw [a2 hd, b2 hd]

/-! ## Migration matrix -/

/-- **C151** (migration matrix) -/
theorem C151_energy_migration_si {n m k : ℕ} (t : RecoTable) (trueEnergyBins : Q (Fin (n + 1) → FV ℝ)) (recoEnergyBins : Q (Fin (m + 1) → FV ℝ)) (fovOffsetBins : Q (Fin (k + 1) → FV ℝ)) :
    (t.trueEnergy.dim = dimEnergy ∧ t.recoEnergy.dim = dimEnergy ∧ t.offset.dim = dimAngle ∧ trueEnergyBins.unit.dim = dimEnergy ∧ recoEnergyBins.unit.dim = dimEnergy ∧ fovOffsetBins.unit.dim = dimAngle →
      energyMigrationMatrixQ c t trueEnergyBins recoEnergyBins fovOffsetBins =
        energyMigrationMatrix (t.si c) (trueEnergyBins.inUnit (teV c)) (recoEnergyBins.inUnit (teV c)) (fovOffsetBins.inUnit radian)) ∧
    (¬ (t.trueEnergy.dim = dimEnergy ∧ t.recoEnergy.dim = dimEnergy ∧ t.offset.dim = dimAngle ∧ trueEnergyBins.unit.dim = dimEnergy ∧ recoEnergyBins.unit.dim = dimEnergy ∧ fovOffsetBins.unit.dim = dimAngle) →
      energyMigrationMatrixQ c t trueEnergyBins recoEnergyBins fovOffsetBins = .error .unitsError) := by
  have e0 : (teV c).dim = dimEnergy := rfl
  have e1 : (degree c).dim = dimAngle := rfl
  constructor
  · rintro ⟨h1, h2, h3, h4, h5, h6⟩
    unfold energyMigrationMatrixQ energyMigrationMatrix
    simp only [checkDim_bind, edges_bind, e0, e1, h1, h2, h3, h4, h5, h6, if_true]
    have := histogram3d_scale one_pos one_pos hc.2 (trueEnergyBins.inUnit (teV c)) (recoEnergyBins.inUnit (teV c)) (fovOffsetBins.inUnit (degree c))
      (t.rows.map fun x => (conv t.trueEnergy (teV c) x.trueEnergy, conv t.recoEnergy (teV c) x.recoEnergy, conv t.offset (degree c) x.offset, 1))
    simp only [one_scale, ← inUnit_rad hc, List.map_map, Function.comp_def, ← conv_rad hc] at this
    unfold RecoTable.si
    rw [List.map_map]
    simp only [Function.comp_def]
    rw [this]
    generalize histogram3d (K := ℝ) _ _ _ _ = r
    cases r <;> rfl
  · intro h
    unfold energyMigrationMatrixQ
    simp only [checkDim_bind, edges_bind, e0, e1]
    split_ifs with h1 h2 h3 h4 h5 h6
    · exact absurd ⟨h4, h5, h6, h1, h2, h3⟩ h
    all_goals rfl

/-- **C151** (migration matrix, same quantities) -/
theorem C151_energy_migration {n m k : ℕ} {t u : RecoTable} (h : SameReco t u) {trueEnergyBins trueEnergyBins' : Q (Fin (n + 1) → FV ℝ)} (h1 : Same trueEnergyBins trueEnergyBins')
    {recoEnergyBins recoEnergyBins' : Q (Fin (m + 1) → FV ℝ)} (h2 : Same recoEnergyBins recoEnergyBins') {fovOffsetBins fovOffsetBins' : Q (Fin (k + 1) → FV ℝ)} (h3 : Same fovOffsetBins fovOffsetBins') :
    energyMigrationMatrixQ c t trueEnergyBins recoEnergyBins fovOffsetBins = energyMigrationMatrixQ c u trueEnergyBins' recoEnergyBins' fovOffsetBins' := by
  obtain ⟨a1, a2⟩ := C151_energy_migration_si hc t trueEnergyBins recoEnergyBins fovOffsetBins
  obtain ⟨b1, b2⟩ := C151_energy_migration_si hc u trueEnergyBins' recoEnergyBins' fovOffsetBins'
  rw [← h.1.1, ← h.2.1.1, ← h.2.2.1.1, ← h1.1, ← h2.1, ← h3.1] at b1 b2
  by_cases hd : t.trueEnergy.dim = dimEnergy ∧ t.recoEnergy.dim = dimEnergy ∧ t.offset.dim = dimAngle ∧ trueEnergyBins.unit.dim = dimEnergy ∧ recoEnergyBins.unit.dim = dimEnergy ∧ fovOffsetBins.unit.dim = dimAngle
  · rw [a1 hd, b1 hd, h.si hc, h1.inUnit hc (teV_pos hc), h2.inUnit hc (teV_pos hc), h3.inUnit hc one_pos]
  · rw [a2 hd, b2 hd]

/-! ## PSF -/

/-- **C151** (PSF) The numbers are in sr^-1. -/
theorem C151_psf_si {n k m : ℕ} (big : ℝ) (t : RecoTable) (trueEnergyBins : Q (Fin (n + 1) → FV ℝ)) (sourceOffsetBins : Q (Fin (m + 1) → ℝ)) (fovOffsetBins : Q (Fin (k + 1) → FV ℝ)) :
    (t.trueEnergy.dim = dimEnergy ∧ t.offset.dim = dimAngle ∧ t.theta.dim = dimAngle ∧ trueEnergyBins.unit.dim = dimEnergy ∧ fovOffsetBins.unit.dim = dimAngle ∧ sourceOffsetBins.unit.dim = dimAngle →
      psfTableQ c big t trueEnergyBins sourceOffsetBins fovOffsetBins = psfTable big (t.si c) (trueEnergyBins.inUnit (teV c)) (sourceOffsetBins.realsIn radian) (fovOffsetBins.inUnit radian)) ∧
    (¬ (t.trueEnergy.dim = dimEnergy ∧ t.offset.dim = dimAngle ∧ t.theta.dim = dimAngle ∧ trueEnergyBins.unit.dim = dimEnergy ∧ fovOffsetBins.unit.dim = dimAngle ∧ sourceOffsetBins.unit.dim = dimAngle) →
      psfTableQ c big t trueEnergyBins sourceOffsetBins fovOffsetBins = .error .unitsError) := by
  have e0 : (teV c).dim = dimEnergy := rfl
  have e1 : (degree c).dim = dimAngle := rfl
  have e2 : radian.dim = dimAngle := rfl
  constructor
  · rintro ⟨h1, h2, h3, h4, h5, h6⟩
    unfold psfTableQ psfTable coneSolidAnglesQ
    simp only [checkDim_bind, edges_bind, reals_bind, e0, e1, e2, h1, h2, h3, h4, h5, h6, if_true]
    have := histogram3d_scale one_pos hc.2 hc.2 (trueEnergyBins.inUnit (teV c)) (fovOffsetBins.inUnit (degree c)) (finEdges (sourceOffsetBins.realsIn (degree c)))
      (t.rows.map fun x => (conv t.trueEnergy (teV c) x.trueEnergy, conv t.offset (degree c) x.offset, conv t.theta (degree c) x.theta, 1))
    simp only [one_scale, ← inUnit_rad hc, ← realsIn_rad hc, List.map_map, Function.comp_def, ← conv_rad hc] at this
    unfold RecoTable.si
    rw [List.map_map]
    simp only [Function.comp_def]
    rw [this]
    generalize histogram3d (K := ℝ) _ _ _ _ = r
    cases r <;> rfl
  · intro h
    unfold psfTableQ coneSolidAnglesQ
    simp only [checkDim_bind, edges_bind, reals_bind, e0, e1, e2]
    split_ifs with h1 h2 h3 h4 h5 h6
    · exact absurd ⟨h1, h2, h3, h4, h5, h6⟩ h
    all_goals rfl

/-- **C151** (PSF, same quantities) -/
theorem C151_psf {n k m : ℕ} (big : ℝ) {t u : RecoTable} (h : SameReco t u) {trueEnergyBins trueEnergyBins' : Q (Fin (n + 1) → FV ℝ)} (h1 : Same trueEnergyBins trueEnergyBins')
    {sourceOffsetBins sourceOffsetBins' : Q (Fin (m + 1) → ℝ)} (h2 : SameR sourceOffsetBins sourceOffsetBins') {fovOffsetBins fovOffsetBins' : Q (Fin (k + 1) → FV ℝ)} (h3 : Same fovOffsetBins fovOffsetBins') :
    psfTableQ c big t trueEnergyBins sourceOffsetBins fovOffsetBins = psfTableQ c big u trueEnergyBins' sourceOffsetBins' fovOffsetBins' := by
  obtain ⟨a1, a2⟩ := C151_psf_si hc big t trueEnergyBins sourceOffsetBins fovOffsetBins
  obtain ⟨b1, b2⟩ := C151_psf_si hc big u trueEnergyBins' sourceOffsetBins' fovOffsetBins'
  rw [← h.1.1, ← h.2.2.1.1, ← h.2.2.2.1.1, ← h1.1, ← h2.1, ← h3.1] at b1 b2
  by_cases hd : t.trueEnergy.dim = dimEnergy ∧ t.offset.dim = dimAngle ∧ t.theta.dim = dimAngle ∧ trueEnergyBins.unit.dim = dimEnergy ∧ fovOffsetBins.unit.dim = dimAngle ∧ sourceOffsetBins.unit.dim = dimAngle
  · rw [a1 hd, b1 hd, h.si hc, h1.inUnit hc (teV_pos hc), h2.realsIn hc one_pos, h3.inUnit hc one_pos]
  · rw [a2 hd, b2 hd]

/-! ## Background -/

omit hc in
/-- the dimension of the rate is right exactly for a time -/
theorem rate_dim (e t : Dim) (he : e = dimEnergy) : Dim.mul (Dim.mul (Dim.inv e) (Dim.inv t)) ⟨0, 0, 0, -2⟩ = ⟨-2, -1, 1, -2⟩ ↔ t = dimTime := by
  subst he
  cases t
  simp only [Dim.mul, Dim.inv, dimEnergy, dimTime, Dim.mk.injEq]
  constructor
  · rintro ⟨a, b, d, e⟩; exact ⟨by omega, by omega, by omega, by omega⟩
  · rintro ⟨a, b, d, e⟩; exact ⟨by omega, by omega, by omega, by omega⟩

/-- one entry of the rate, in other units -/
theorem rate_entry (h : FV ℝ) {eu tu : PhysUnit ℝ} (he : 0 < eu.scale) (ht : 0 < tu.scale) (lo hi : FV ℝ) (tv : ℝ) (s : FV ℝ) :
    FV.fin (1 / (eu.scale * tu.scale) / (1 / (10 ^ 12 * c.eV))) * (h / (hi - lo) / FV.fin tv / s) =
      h / (conv eu (teV c) hi - conv eu (teV c) lo) / FV.fin (tu.scale / second.scale * tv) / s := by
  have hT := hc.1
  have hp : 0 < eu.scale / (teV c).scale := div_pos he (teV_pos hc)
  unfold conv
  rw [sub_scale hp, div_mul_left hp, mul_div_left (by positivity)]
  have e2 : FV.fin (tu.scale / second.scale * tv) = FV.fin tu.scale * FV.fin tv := by
    rw [FV.fin_mul_fin]; congr 1; show tu.scale / 1 * tv = _; rw [div_one]
  rw [e2, div_mul_left ht, scale_scale (by positivity), mul_div_left (by positivity)]
  congr 2
  show _ = 1 / (eu.scale / (10 ^ 12 * c.eV)) * (1 / tu.scale)
  field_simp

/-- **C151** (background_2d) The rate is in s^-1 TeV^-1 sr^-1 whatever the units of the bins and of the observation time. -/
theorem C151_background2d_si {n m : ℕ} (t : BackgroundTable) (recoEnergyBins : Q (Fin (n + 1) → FV ℝ)) (hE : 0 < recoEnergyBins.unit.scale) (fovOffsetBins : Q (Fin (m + 1) → ℝ)) (tObs : Q ℝ)
    (hT : 0 < tObs.unit.scale) :
    (t.energy.dim = dimEnergy ∧ t.offset.dim = dimAngle ∧ recoEnergyBins.unit.dim = dimEnergy ∧ fovOffsetBins.unit.dim = dimAngle ∧ tObs.unit.dim = dimTime →
      background2dQ c t recoEnergyBins fovOffsetBins tObs = background2d (t.si c) (recoEnergyBins.inUnit (teV c)) (fovOffsetBins.realsIn radian) (tObs.num second)) ∧
    (¬ (t.energy.dim = dimEnergy ∧ t.offset.dim = dimAngle ∧ recoEnergyBins.unit.dim = dimEnergy ∧ fovOffsetBins.unit.dim = dimAngle) →
      background2dQ c t recoEnergyBins fovOffsetBins tObs = .error .unitsError) ∧
    (t.energy.dim = dimEnergy ∧ t.offset.dim = dimAngle ∧ recoEnergyBins.unit.dim = dimEnergy ∧ fovOffsetBins.unit.dim = dimAngle ∧ tObs.unit.dim ≠ dimTime →
      background2dQ c t recoEnergyBins fovOffsetBins tObs =
        if badEdges (recoEnergyBins.inUnit (teV c)) ∨ badEdges (finEdges (fovOffsetBins.realsIn radian)) then .error .valueError else .error .unitsError) := by
  have e0 : (teV c).dim = dimEnergy := rfl
  have e1 : (degree c).dim = dimAngle := rfl
  have e2 : radian.dim = dimAngle := rfl
  have e3 : (backgroundUnit c).dim = ⟨-2, -1, 1, -2⟩ := rfl
  have key : ∀ {α : Type} (k : (Fin n → Fin m → ℝ) → Except Err α), t.energy.dim = dimEnergy ∧ t.offset.dim = dimAngle ∧ recoEnergyBins.unit.dim = dimEnergy ∧ fovOffsetBins.unit.dim = dimAngle →
      (histogram2d (recoEnergyBins.inUnit (teV c)) (finEdges (fovOffsetBins.realsIn (degree c)))
        (t.rows.map fun r => (conv t.energy (teV c) r.energy, conv t.offset (degree c) r.offset, r.weight)) >>= k) =
      (histogram2d (recoEnergyBins.inUnit (teV c)) (finEdges (fovOffsetBins.realsIn radian)) ((t.si c).map fun e => (e.energy, e.offset, e.weight)) >>= k) := by
    intro α k _
    have := histogram2d_scale one_pos hc.2 (recoEnergyBins.inUnit (teV c)) (finEdges (fovOffsetBins.realsIn (degree c)))
      (t.rows.map fun r => (conv t.energy (teV c) r.energy, conv t.offset (degree c) r.offset, r.weight))
    simp only [one_scale, ← realsIn_rad hc, List.map_map, Function.comp_def, ← conv_rad hc] at this
    unfold BackgroundTable.si
    rw [List.map_map]
    simp only [Function.comp_def]
    rw [this]
  refine ⟨?_, ?_, ?_⟩
  · rintro ⟨h1, h2, h3, h4, h5⟩
    unfold background2dQ background2d coneSolidAnglesQ rateFactor
    simp only [checkDim_bind, edges_bind, reals_bind, e0, e1, e2, e3, h1, h2, h3, h4, if_true]
    rw [key _ ⟨h1, h2, h3, h4⟩]
    generalize histogram2d (K := ℝ) _ _ _ = r
    cases r with
    | error e => rfl
    | ok hist =>
      rw [if_pos (show Dim.mul (Dim.mul (Dim.inv dimEnergy) (Dim.inv tObs.unit.dim)) ⟨0, 0, 0, -2⟩ = (⟨-2, -1, 1, -2⟩ : Dim) from (rate_dim _ _ rfl).2 h5)]
      refine congrArg Except.ok ?_
      funext i j
      exact rate_entry hc _ hE hT _ _ _ _
  · intro h
    unfold background2dQ coneSolidAnglesQ
    simp only [checkDim_bind, edges_bind, reals_bind, e0, e1, e2]
    split_ifs with h1 h2 h3 h4
    · exact absurd ⟨h1, h2, h3, h4⟩ h
    all_goals rfl
  · rintro ⟨h1, h2, h3, h4, h5⟩
    unfold background2dQ coneSolidAnglesQ rateFactor
    simp only [checkDim_bind, edges_bind, reals_bind, e0, e1, e2, e3, h1, h2, h3, h4, if_true]
    rw [key _ ⟨h1, h2, h3, h4⟩]
    rw [if_neg (show ¬ Dim.mul (Dim.mul (Dim.inv dimEnergy) (Dim.inv tObs.unit.dim)) ⟨0, 0, 0, -2⟩ = (⟨-2, -1, 1, -2⟩ : Dim) from fun hh => h5 ((rate_dim _ _ rfl).1 hh))]
    unfold histogram2d
    split_ifs <;> rfl

omit hc in
/-- the number in another unit is the same for the same quantity -/
theorem Same1.num {x y : Q ℝ} (h : Same1 x y) (target : PhysUnit ℝ) : x.num target = y.num target := by
  unfold Q.num
  rw [div_mul_eq_mul_div, div_mul_eq_mul_div, h.2.2.2]

/-- **C151** (background_2d, same quantities) -/
theorem C151_background2d {n m : ℕ} {t u : BackgroundTable} (h : SameBackground t u) {recoEnergyBins recoEnergyBins' : Q (Fin (n + 1) → FV ℝ)} (h1 : Same recoEnergyBins recoEnergyBins')
    {fovOffsetBins fovOffsetBins' : Q (Fin (m + 1) → ℝ)} (h2 : SameR fovOffsetBins fovOffsetBins') {tObs tObs' : Q ℝ} (h3 : Same1 tObs tObs') :
    background2dQ c t recoEnergyBins fovOffsetBins tObs = background2dQ c u recoEnergyBins' fovOffsetBins' tObs' := by
  obtain ⟨a1, a2, a3⟩ := C151_background2d_si hc t recoEnergyBins h1.2.1 fovOffsetBins tObs h3.2.1
  obtain ⟨b1, b2, b3⟩ := C151_background2d_si hc u recoEnergyBins' h1.2.2.1 fovOffsetBins' tObs' h3.2.2.1
  rw [← h.1.1, ← h.2.1.1, ← h1.1, ← h2.1] at b1 b2 b3
  rw [← h3.1] at b1 b3
  by_cases hd : t.energy.dim = dimEnergy ∧ t.offset.dim = dimAngle ∧ recoEnergyBins.unit.dim = dimEnergy ∧ fovOffsetBins.unit.dim = dimAngle
  · obtain ⟨d1, d2, d3, d4⟩ := hd
    by_cases d5 : tObs.unit.dim = dimTime
    · rw [a1 ⟨d1, d2, d3, d4, d5⟩, b1 ⟨d1, d2, d3, d4, d5⟩, h.si hc, h1.inUnit hc (teV_pos hc), h2.realsIn hc one_pos, h3.num]
    · rw [a3 ⟨d1, d2, d3, d4, d5⟩, b3 ⟨d1, d2, d3, d4, d5⟩, h1.inUnit hc (teV_pos hc), h2.realsIn hc one_pos]
  · rw [a2 hd, b2 hd]

/-! ## Background in longitude and latitude -/

omit hc in
/-- a function of the entries applied after broadcasting -/
theorem broadcast3_map {α α' β β' γ γ' : Type} (f : α → β → γ) (f' : α' → β' → γ') (g : γ → γ') (A : Arr3 α) (A' : Arr3 α') (B : Arr3 β) (B' : Arr3 β') (hA : A.shape = A'.shape) (hB : B.shape = B'.shape)
    (h : ∀ i j l i' j' l', g (f (A.val i j l) (B.val i' j' l')) = f' (A'.val i j l) (B'.val i' j' l')) :
    (broadcast3 f A B).map (fun r => (⟨r.shape, fun i j l => g (r.val i j l)⟩ : Arr3 γ')) = broadcast3 f' A' B' := by
  unfold broadcast3
  rw [hA, hB]
  split
  · refine congrArg Except.ok ?_
    refine congrArg (Arr3.mk _) ?_
    funext i j l
    exact h _ _ _ _ _ _
  · rfl

omit hc in
theorem rectangleQ_eq (lu bu : PhysUnit ℝ) (a b d e : ℝ) :
    rectangleQ lu bu a b d e = rectangleSolidAngle (lu.scale / radian.scale * a) (lu.scale / radian.scale * b) (bu.scale / radian.scale * d) (bu.scale / radian.scale * e) := by
  unfold rectangleQ rectangleSolidAngle
  ring

/-- **C151** (background_3d_lonlat) The rate is in s^-1 TeV^-1 sr^-1 whatever the units of the bins and of the observation time. -/
theorem C151_background3d_si {n p q : ℕ} (t : BackgroundTable) (recoEnergyBins : Q (Fin (n + 1) → FV ℝ)) (hE : 0 < recoEnergyBins.unit.scale) (lonBins : Q (Fin (p + 1) → ℝ)) (latBins : Q (Fin (q + 1) → ℝ))
    (tObs : Q ℝ) (hT : 0 < tObs.unit.scale) :
    (t.energy.dim = dimEnergy ∧ t.lon.dim = dimAngle ∧ t.lat.dim = dimAngle ∧ recoEnergyBins.unit.dim = dimEnergy ∧ lonBins.unit.dim = dimAngle ∧ latBins.unit.dim = dimAngle ∧ tObs.unit.dim = dimTime →
      background3dLonlatQ c t recoEnergyBins lonBins latBins tObs =
        background3dLonlat (t.si c) (recoEnergyBins.inUnit (teV c)) (lonBins.realsIn radian) (latBins.realsIn radian) (tObs.num second)) ∧
    (¬ (t.energy.dim = dimEnergy ∧ t.lon.dim = dimAngle ∧ t.lat.dim = dimAngle ∧ recoEnergyBins.unit.dim = dimEnergy ∧ lonBins.unit.dim = dimAngle ∧ latBins.unit.dim = dimAngle) →
      background3dLonlatQ c t recoEnergyBins lonBins latBins tObs = .error .unitsError) ∧
    (t.energy.dim = dimEnergy ∧ t.lon.dim = dimAngle ∧ t.lat.dim = dimAngle ∧ recoEnergyBins.unit.dim = dimEnergy ∧ lonBins.unit.dim = dimAngle ∧ latBins.unit.dim = dimAngle ∧ tObs.unit.dim ≠ dimTime →
      background3dLonlatQ c t recoEnergyBins lonBins latBins tObs =
        (background3dLonlat (t.si c) (recoEnergyBins.inUnit (teV c)) (lonBins.realsIn radian) (latBins.realsIn radian) (tObs.num second) >>= fun _ => .error .unitsError)) := by
  have e0 : (teV c).dim = dimEnergy := rfl
  have e1 : (degree c).dim = dimAngle := rfl
  have e3 : (backgroundUnit c).dim = ⟨-2, -1, 1, -2⟩ := rfl
  have key : histogram3d (recoEnergyBins.inUnit (teV c)) (finEdges (lonBins.realsIn (degree c))) (finEdges (latBins.realsIn (degree c)))
        (t.rows.map fun r => (conv t.energy (teV c) r.energy, conv t.lon (degree c) r.lon, conv t.lat (degree c) r.lat, r.weight)) =
      histogram3d (recoEnergyBins.inUnit (teV c)) (finEdges (lonBins.realsIn radian)) (finEdges (latBins.realsIn radian)) ((t.si c).map fun e => (e.energy, e.lon, e.lat, e.weight)) := by
    have := histogram3d_scale one_pos hc.2 hc.2 (recoEnergyBins.inUnit (teV c)) (finEdges (lonBins.realsIn (degree c))) (finEdges (latBins.realsIn (degree c)))
      (t.rows.map fun r => (conv t.energy (teV c) r.energy, conv t.lon (degree c) r.lon, conv t.lat (degree c) r.lat, r.weight))
    simp only [one_scale, ← realsIn_rad hc, List.map_map, Function.comp_def, ← conv_rad hc] at this
    unfold BackgroundTable.si
    rw [List.map_map]
    simp only [Function.comp_def]
    rw [this]
  have rect : ∀ j l : ℕ, rectangleQ lonBins.unit latBins.unit (if h : j < p + 1 then lonBins.val ⟨j, h⟩ else 0) (if h : j + 1 < p + 1 then lonBins.val ⟨j + 1, h⟩ else 0)
        (if h : l < q + 1 then latBins.val ⟨l, h⟩ else 0) (if h : l + 1 < q + 1 then latBins.val ⟨l + 1, h⟩ else 0) =
      rectangleSolidAngle (if h : j < p + 1 then lonBins.realsIn radian ⟨j, h⟩ else 0) (if h : j + 1 < p + 1 then lonBins.realsIn radian ⟨j + 1, h⟩ else 0)
        (if h : l < q + 1 then latBins.realsIn radian ⟨l, h⟩ else 0) (if h : l + 1 < q + 1 then latBins.realsIn radian ⟨l + 1, h⟩ else 0) := by
    intro j l
    rw [rectangleQ_eq]
    congr 1 <;> (split_ifs <;> first | rfl | simp)
  refine ⟨?_, ?_, ?_⟩
  · rintro ⟨h1, h2, h3, h4, h5, h6, h7⟩
    unfold background3dLonlatQ background3dLonlat rateFactor
    simp only [checkDim_bind, edges_bind, reals_bind, e0, e1, e3, h1, h2, h3, h4, h5, h6, if_true]
    rw [key]
    generalize histogram3d (K := ℝ) _ _ _ _ = r
    cases r with
    | error e => rfl
    | ok hist =>
      simp only [bind, Except.bind]
      cases bcastLen p q with
      | none => rfl
      | some r =>
        simp only [rect]
        rw [if_pos (show Dim.mul (Dim.mul (Dim.inv dimEnergy) (Dim.inv tObs.unit.dim)) ⟨0, 0, 0, -2⟩ = (⟨-2, -1, 1, -2⟩ : Dim) from (rate_dim _ _ rfl).2 h7)]
        refine Eq.trans ?_ (broadcast3_map (fun x y => x / FV.fin y) (fun x y => x / FV.fin y)
          (fun x => FV.fin (1 / (recoEnergyBins.unit.scale * tObs.unit.scale) / (backgroundUnit c).scale) * x)
          (Arr3.ofFn FV.nan (fun i j l => FV.fin (hist i j l) / (recoEnergyBins.val i.succ - recoEnergyBins.val i.castSucc) / FV.fin tObs.val)) _ _ _ rfl rfl ?_)
        · generalize broadcast3 _ _ _ = r
          cases r <;> rfl
        · intro i j l i' j' l'
          unfold Arr3.ofFn
          by_cases hh : i < n ∧ j < p ∧ l < q
          · simp only [dif_pos hh]
            exact rate_entry hc _ hE hT _ _ _ _
          · simp only [dif_neg hh]
            simp
  · intro h
    unfold background3dLonlatQ
    simp only [checkDim_bind, edges_bind, reals_bind, e0, e1]
    split_ifs with h1 h2 h3 h4 h5 h6
    · exact absurd ⟨h1, h2, h3, h4, h5, h6⟩ h
    all_goals rfl
  · rintro ⟨h1, h2, h3, h4, h5, h6, h7⟩
    unfold background3dLonlatQ background3dLonlat rateFactor
    simp only [checkDim_bind, edges_bind, reals_bind, e0, e1, e3, h1, h2, h3, h4, h5, h6, if_true]
    rw [key]
    generalize histogram3d (K := ℝ) _ _ _ _ = r
    cases r with
    | error e => rfl
    | ok hist =>
      simp only [bind, Except.bind]
      cases bcastLen p q with
      | none => rfl
      | some r =>
        simp only
        rw [if_neg (show ¬ Dim.mul (Dim.mul (Dim.inv dimEnergy) (Dim.inv tObs.unit.dim)) ⟨0, 0, 0, -2⟩ = (⟨-2, -1, 1, -2⟩ : Dim) from fun hh => h7 ((rate_dim _ _ rfl).1 hh))]
        unfold broadcast3 Arr3.ofFn
        simp only
        cases bcastLen n 1 <;> cases bcastLen p 1 <;> cases bcastLen q r <;> rfl

/-- **C151** (background_3d_lonlat, same quantities) -/
theorem C151_background3d {n p q : ℕ} {t u : BackgroundTable} (h : SameBackground t u) {recoEnergyBins recoEnergyBins' : Q (Fin (n + 1) → FV ℝ)} (h1 : Same recoEnergyBins recoEnergyBins')
    {lonBins lonBins' : Q (Fin (p + 1) → ℝ)} (h2 : SameR lonBins lonBins') {latBins latBins' : Q (Fin (q + 1) → ℝ)} (h3 : SameR latBins latBins') {tObs tObs' : Q ℝ} (h4 : Same1 tObs tObs') :
    background3dLonlatQ c t recoEnergyBins lonBins latBins tObs = background3dLonlatQ c u recoEnergyBins' lonBins' latBins' tObs' := by
  obtain ⟨a1, a2, a3⟩ := C151_background3d_si hc t recoEnergyBins h1.2.1 lonBins latBins tObs h4.2.1
  obtain ⟨b1, b2, b3⟩ := C151_background3d_si hc u recoEnergyBins' h1.2.2.1 lonBins' latBins' tObs' h4.2.2.1
  rw [← h.1.1, ← h.2.2.1.1, ← h.2.2.2.1.1, ← h1.1, ← h2.1, ← h3.1] at b1 b2 b3
  rw [← h4.1] at b1 b3
  by_cases hd : t.energy.dim = dimEnergy ∧ t.lon.dim = dimAngle ∧ t.lat.dim = dimAngle ∧ recoEnergyBins.unit.dim = dimEnergy ∧ lonBins.unit.dim = dimAngle ∧ latBins.unit.dim = dimAngle
  · obtain ⟨d1, d2, d3, d4, d5, d6⟩ := hd
    by_cases d7 : tObs.unit.dim = dimTime
    · rw [a1 ⟨d1, d2, d3, d4, d5, d6, d7⟩, b1 ⟨d1, d2, d3, d4, d5, d6, d7⟩, h.si hc, h1.inUnit hc (teV_pos hc), h2.realsIn hc one_pos, h3.realsIn hc one_pos, h4.num]
    · rw [a3 ⟨d1, d2, d3, d4, d5, d6, d7⟩, b3 ⟨d1, d2, d3, d4, d5, d6, d7⟩, h.si hc, h1.inUnit hc (teV_pos hc), h2.realsIn hc one_pos, h3.realsIn hc one_pos, h4.num]
  · rw [a2 hd, b2 hd]

/-! ## A concrete case: the same background events and bins in TeV, degree, second and in GeV, radian, hours -/

section example_
omit hc

/-- constants of the example (the size of eV does not matter; one degree is 1/64 radian here to keep the arithmetic short) -/
noncomputable def exConsts : Consts ℝ := ⟨1, 1 / 64⟩
/-- GeV -/
noncomputable def exGeV : PhysUnit ℝ := ⟨dimEnergy, 10 ^ 9⟩
/-- hour -/
noncomputable def exHour : PhysUnit ℝ := ⟨dimTime, 3600⟩

example : Consts.Pos exConsts := ⟨one_pos, by norm_num [exConsts]⟩

example : SameBackground ⟨teV exConsts, degree exConsts, degree exConsts, degree exConsts, [⟨.fin 2, .fin 1, .pinf, .fin 3, 5⟩, ⟨.nan, .fin 1, .fin 0, .fin 3, 5⟩]⟩
    ⟨exGeV, radian, degree exConsts, radian, [⟨.fin 2000, .fin (1 / 64), .pinf, .fin (3 / 64), 5⟩, ⟨.nan, .fin (1 / 64), .fin 0, .fin (3 / 64), 5⟩]⟩ := by
  refine ⟨⟨rfl, ?_, ?_⟩, ⟨rfl, ?_, ?_⟩, ⟨rfl, ?_, ?_⟩, ⟨rfl, ?_, ?_⟩, .cons ⟨?_, ?_, ?_, ?_, rfl⟩ (.cons ⟨?_, ?_, ?_, ?_, rfl⟩ .nil)⟩ <;>
    first | norm_num [teV, degree, exConsts, exGeV, radian, si] | rfl

example : Same (⟨teV exConsts, ![.fin 1, .fin 3, .pinf]⟩ : Q (Fin 3 → FV ℝ)) ⟨exGeV, ![.fin 1000, .fin 3000, .pinf]⟩ := by
  refine ⟨rfl, ?_, ?_, ?_⟩
  · norm_num [teV, exConsts]
  · norm_num [exGeV]
  · intro i
    fin_cases i <;> norm_num [teV, exConsts, exGeV, si, scale_pinf]

example : SameR (⟨degree exConsts, ![0, 2]⟩ : Q (Fin 2 → ℝ)) ⟨radian, ![0, 1 / 32]⟩ := by
  refine ⟨rfl, by norm_num [degree, exConsts], by norm_num [radian], fun i => ?_⟩
  fin_cases i <;> norm_num [degree, radian, exConsts]

example : Same1 ⟨exHour, 50⟩ ⟨second, 180000⟩ := ⟨rfl, by norm_num [exHour], by norm_num [second], by norm_num [exHour, second]⟩

end example_

end Pyirf.Units
