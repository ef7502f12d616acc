import Verif.Examples.RunProps
import Verif.Io.GadfProps

/-! # Property C137: the HDUs that the EventDisplay script writes -/
set_option linter.unusedSectionVars false
set_option linter.unusedSimpArgs false

namespace Pyirf.Examples
open Pyirf Pyirf.Np Pyirf.Binning Pyirf.Cuts Pyirf.Sensitivity Pyirf.CutOpt Pyirf.Simulations Pyirf.Spectral Pyirf.Coords
open Pyirf.Io (Hdu StoresAxis si HVal PhysUnit Consts teV degree m2 perSr bkgUnit unitOne)

/-! ## Specification -/

/-- The column `name` holds in unit `unit` the two-dimensional array `a`, which is in unit `u`. -/
def Holds2 (h : Hdu ℝ) (name : String) (unit u : PhysUnit ℝ) {n m : ℕ} (a : Fin n → Fin m → FV ℝ) : Prop :=
  ∃ col, h.column? name = some col ∧ col.unit = some unit ∧ col.dims = [n, m] ∧
    ∀ i j, ∃ v, col.read [i.val, j.val] = some v ∧ si (some unit) v = si (some u) (a i j)

/-- The column `name` holds in unit `unit` the three-dimensional array `a`, which is in unit `u`. -/
def Holds3 (h : Hdu ℝ) (name : String) (unit u : PhysUnit ℝ) {n m k : ℕ} (a : Fin n → Fin m → Fin k → FV ℝ) : Prop :=
  ∃ col, h.column? name = some col ∧ col.unit = some unit ∧ col.dims = [n, m, k] ∧
    ∀ i j l, ∃ v, col.read [i.val, j.val, l.val] = some v ∧ si (some unit) v = si (some u) (a i j l)

/-- `1 / (TeV s sr)`, the unit of the background rate in the model -/
noncomputable def perTeV (c : Consts ℝ) : PhysUnit ℝ := ⟨⟨-2, -1, 1, -2⟩, 1 / (10 ^ 12 * c.eV)⟩

/-- An effective area HDU: energy and offset axes, the areas in m², marked as point-like. -/
def IsAreaHdu (c : Consts ℝ) (s : Settings) (area : Fin (s.trueEnergyBins.length - 1) → FV ℝ) (h : Hdu ℝ) : Prop :=
  StoresAxis h "ENERG" (some (teV c)) (energyArg c s.trueEnergyBins) ∧ StoresAxis h "THETA" (some (degree c)) (angleArg s.fovOffsetBins) ∧
    Holds2 h "EFFAREA" m2 m2 (fun i (_ : Fin 1) => area i) ∧ h.header.get? "HDUCLAS3" = some (.str "POINT-LIKE")

/-- An energy dispersion HDU, marked as point-like. -/
def IsDispersionHdu (c : Consts ℝ) (s : Settings)
    (edisp : Fin (s.trueEnergyBins.length - 1) → Fin (s.migrationBins.length - 1) → Fin (s.fovOffsetBins.length - 1) → FV ℝ) (h : Hdu ℝ) : Prop :=
  StoresAxis h "ENERG" (some (teV c)) (energyArg c s.trueEnergyBins) ∧ StoresAxis h "MIGRA" none ⟨none, s.migrationBins.map FV.fin⟩ ∧
    StoresAxis h "THETA" (some (degree c)) (angleArg s.fovOffsetBins) ∧ Holds3 h "MATRIX" unitOne unitOne edisp ∧
    h.header.get? "HDUCLAS3" = some (.str "POINT-LIKE")

/-- The background HDU: the rates per MeV. -/
def IsBackgroundHdu (c : Consts ℝ) (s : Settings) (bkg : Fin (s.recoEnergyBins.length - 1) → Fin (s.backgroundFovBins.length - 1) → FV ℝ) (h : Hdu ℝ) : Prop :=
  StoresAxis h "ENERG" (some (teV c)) (energyArg c s.recoEnergyBins) ∧ StoresAxis h "THETA" (some (degree c)) (angleArg s.backgroundFovBins) ∧
    Holds2 h "BKG" (bkgUnit c) (perTeV c) bkg ∧ h.header.get? "HDUCLAS3" = some (.str "FULL-ENCLOSURE")

/-- The PSF HDU: the axis RAD has the source offsets. -/
def IsPsfHdu (c : Consts ℝ) (s : Settings)
    (psf : Fin (s.trueEnergyBins.length - 1) → Fin (s.fovOffsetBins.length - 1) → Fin (s.sourceOffsetBins.length - 1) → FV ℝ) (h : Hdu ℝ) : Prop :=
  StoresAxis h "ENERG" (some (teV c)) (energyArg c s.trueEnergyBins) ∧ StoresAxis h "THETA" (some (degree c)) (angleArg s.fovOffsetBins) ∧
    StoresAxis h "RAD" (some (degree c)) (angleArg s.sourceOffsetBins) ∧ Holds3 h "RPSF" perSr perSr psf ∧
    h.header.get? "HDUCLAS3" = some (.str "FULL-ENCLOSURE")

/-- The RAD_MAX HDU: the theta cuts `cuts` (radian) in the fine energy bins. -/
def IsRadMaxHdu (c : Consts ℝ) (s : Settings) (cuts : List (FV ℝ)) (h : Hdu ℝ) : Prop :=
  StoresAxis h "ENERG" (some (teV c)) (energyArg c s.thetaBins) ∧ StoresAxis h "THETA" (some (degree c)) (angleArg s.fovOffsetBins) ∧
    (∃ col, h.column? "RAD_MAX" = some col ∧ col.unit = some (degree c) ∧ col.dims = [s.thetaBins.length - 1, 1] ∧
      ∀ (i : ℕ) (x : FV ℝ), cuts[i]? = some x → ∃ v, col.read [i, 0] = some v ∧ si (some (degree c)) v = si (some ⟨⟨0, 0, 0, 1⟩, 1⟩) x) ∧
    h.header.get? "HDUCLAS3" = some (.str "POINT-LIKE")

/-- Name and contents of the HDUs. -/
noncomputable def expectedHdus (c : Consts ℝ) (s : Settings) (out : Output s) (sel no gh th : MaskIrf s) : List (String × (Hdu ℝ → Prop)) :=
  [("EFFECTIVE_AREA", IsAreaHdu c s sel.area), ("ENERGY_DISPERSION", IsDispersionHdu c s sel.edisp),
   ("EFFECTIVE_AREA_NO_CUTS", IsAreaHdu c s no.area), ("ENERGY_DISPERSION_NO_CUTS", IsDispersionHdu c s no.edisp),
   ("EFFECTIVE_AREA_ONLY_GH", IsAreaHdu c s gh.area), ("ENERGY_DISPERSION_ONLY_GH", IsDispersionHdu c s gh.edisp),
   ("EFFECTIVE_AREA_ONLY_THETA", IsAreaHdu c s th.area), ("ENERGY_DISPERSION_ONLY_THETA", IsDispersionHdu c s th.edisp),
   ("BACKGROUND", IsBackgroundHdu c s out.background), ("PSF", IsPsfHdu c s out.psf), ("RAD_MAX", IsRadMaxHdu c s out.sel.thetaCuts.cut)]

/-! ## Lemmas -/

theorem holds2_of {h : Hdu ℝ} {name : String} {unit u : PhysUnit ℝ} {n m : ℕ} {a : Fin n → Fin m → FV ℝ}
    (hs : Io.StoresData h name unit ⟨some u, nd2 a⟩) : Holds2 h name unit u a := by
  obtain ⟨col, h1, h2, h3, -, h5⟩ := hs
  refine ⟨col, h1, h2, h3, fun i j => ?_⟩
  obtain ⟨v, hv, he⟩ := h5 [i.val, j.val] (.cons i.2 (.cons j.2 .nil))
  refine ⟨v, hv, he.trans ?_⟩
  show si (some u) (if h : i.val < n ∧ j.val < m then a ⟨i.val, h.1⟩ ⟨j.val, h.2⟩ else .nan) = _
  rw [dif_pos ⟨i.2, j.2⟩]

theorem holds3_of {h : Hdu ℝ} {name : String} {unit u : PhysUnit ℝ} {n m k : ℕ} {a : Fin n → Fin m → Fin k → FV ℝ} {x : Option (PhysUnit ℝ)}
    (hs : Io.StoresData h name unit ⟨x, nd3 a⟩) (hx : ∀ y, si x y = si (some u) y) : Holds3 h name unit u a := by
  obtain ⟨col, h1, h2, h3, -, h5⟩ := hs
  refine ⟨col, h1, h2, h3, fun i j l => ?_⟩
  obtain ⟨v, hv, he⟩ := h5 [i.val, j.val, l.val] (.cons i.2 (.cons j.2 (.cons l.2 .nil)))
  refine ⟨v, hv, he.trans ((hx _).trans ?_)⟩
  show si (some u) (if h : i.val < n ∧ j.val < m ∧ l.val < k then a ⟨i.val, h.1⟩ ⟨j.val, h.2.1⟩ ⟨l.val, h.2.2⟩ else .nan) = _
  rw [dif_pos ⟨i.2, j.2, l.2⟩]

/-- the name and the class cards of a header -/
theorem header_of {version now ext : String} (hne : ext ≠ "") {h fixed : Io.Header} (hh : Io.HeaderIs ⟨version, now, ext, []⟩ h fixed) :
    h.get? "EXTNAME" = some (.str (Io.upper ext)) ∧ h.get? "HDUCLAS3" = fixed.get? "HDUCLAS3" := by
  constructor
  · have := hh "EXTNAME" (by decide)
    rw [if_pos ⟨rfl, hne⟩] at this
    exact this
  · have := hh "HDUCLAS3" (by decide)
    rw [if_neg (by simp)] at this
    exact this

section
variable (c : Consts ℝ) (hE : 0 < c.eV) (hD : 0 < c.deg) (version now : String) (s : Settings)
include hE hD

theorem area_hdu (ext : String) (hne : ext ≠ "") (area : Fin (s.trueEnergyBins.length - 1) → FV ℝ) :
    ∃ h, Io.createAeff2dHdu c ⟨version, now, ext, []⟩ ⟨some m2, nd2 fun i (_ : Fin 1) => area i⟩ (energyArg c s.trueEnergyBins) (angleArg s.fovOffsetBins) = .ok h ∧
      h.header.get? "EXTNAME" = some (.str (Io.upper ext)) ∧ IsAreaHdu c s area h := by
  obtain ⟨h, hok⟩ := (Io.accepted_iff (Io.C67_aeff_errors c ⟨version, now, ext, []⟩ ⟨some m2, nd2 fun i (_ : Fin 1) => area i⟩ (energyArg c s.trueEnergyBins)
    (angleArg s.fovOffsetBins) true)).mpr (by simp [Io.unitVerdict, energyArg, angleArg, radian, degree])
  obtain ⟨-, h2, h3, h4, h5, -⟩ := Io.C67_aeff c hE hD _ _ _ _ _ h hok
  obtain ⟨k1, k2⟩ := header_of hne h5
  exact ⟨h, hok, k1, h2, h3, holds2_of h4, k2⟩

theorem dispersion_hdu (ext : String) (hne : ext ≠ "")
    (edisp : Fin (s.trueEnergyBins.length - 1) → Fin (s.migrationBins.length - 1) → Fin (s.fovOffsetBins.length - 1) → FV ℝ) :
    ∃ h, Io.createEnergyDispersionHdu c ⟨version, now, ext, []⟩ ⟨none, nd3 edisp⟩ (energyArg c s.trueEnergyBins) ⟨none, s.migrationBins.map FV.fin⟩
        (angleArg s.fovOffsetBins) = .ok h ∧
      h.header.get? "EXTNAME" = some (.str (Io.upper ext)) ∧ IsDispersionHdu c s edisp h := by
  obtain ⟨h, hok⟩ := (Io.accepted_iff (Io.C67_edisp_errors c ⟨version, now, ext, []⟩ ⟨none, nd3 edisp⟩ (energyArg c s.trueEnergyBins) ⟨none, s.migrationBins.map FV.fin⟩
    (angleArg s.fovOffsetBins) true)).mpr (by simp [Io.unitVerdict, energyArg, angleArg, radian, degree])
  obtain ⟨-, h2, h3, h3', h4, h5, -⟩ := Io.C67_edisp c hE hD _ _ _ _ _ _ h hok
  obtain ⟨k1, k2⟩ := header_of hne h5
  exact ⟨h, hok, k1, h2, h3, h3', holds3_of h4 (fun y => by simp [si, unitOne]), k2⟩

theorem background_hdu (ext : String) (hne : ext ≠ "") (bkg : Fin (s.recoEnergyBins.length - 1) → Fin (s.backgroundFovBins.length - 1) → FV ℝ) :
    ∃ h, Io.createBackground2dHdu c ⟨version, now, ext, []⟩ ⟨some (perTeV c), nd2 bkg⟩ (energyArg c s.recoEnergyBins) (angleArg s.backgroundFovBins) = .ok h ∧
      h.header.get? "EXTNAME" = some (.str (Io.upper ext)) ∧ IsBackgroundHdu c s bkg h := by
  obtain ⟨h, hok⟩ := (Io.accepted_iff (Io.C67_bkg2d_errors c ⟨version, now, ext, []⟩ ⟨some (perTeV c), nd2 bkg⟩ (energyArg c s.recoEnergyBins)
    (angleArg s.backgroundFovBins))).mpr (by simp [Io.unitVerdict, Io.convertVerdict, energyArg, angleArg, radian, degree, perTeV, bkgUnit])
  obtain ⟨-, h2, h3, h4, h5, -⟩ := Io.C67_bkg2d c hE hD _ _ _ _ h hok
  obtain ⟨k1, k2⟩ := header_of hne h5
  exact ⟨h, hok, k1, h2, h3, holds2_of h4, k2⟩

theorem psf_hdu (ext : String) (hne : ext ≠ "")
    (psf : Fin (s.trueEnergyBins.length - 1) → Fin (s.fovOffsetBins.length - 1) → Fin (s.sourceOffsetBins.length - 1) → FV ℝ) :
    ∃ h, Io.createPsfTableHdu c ⟨version, now, ext, []⟩ ⟨some perSr, nd3 psf⟩ (energyArg c s.trueEnergyBins) (angleArg s.sourceOffsetBins)
        (angleArg s.fovOffsetBins) = .ok h ∧
      h.header.get? "EXTNAME" = some (.str (Io.upper ext)) ∧ IsPsfHdu c s psf h := by
  obtain ⟨h, hok⟩ := (Io.accepted_iff (Io.C67_psf_errors c ⟨version, now, ext, []⟩ ⟨some perSr, nd3 psf⟩ (energyArg c s.trueEnergyBins) (angleArg s.sourceOffsetBins)
    (angleArg s.fovOffsetBins))).mpr (by simp [Io.unitVerdict, energyArg, angleArg, radian, degree])
  obtain ⟨-, h2, h3, h3', h4, h5, -⟩ := Io.C67_psf c hE hD _ _ _ _ _ h hok
  obtain ⟨k1, k2⟩ := header_of hne h5
  exact ⟨h, hok, k1, h2, h3, h3', holds3_of h4 (fun y => rfl), k2⟩

theorem radMax_hdu (ext : String) (hne : ext ≠ "") (cuts : List (FV ℝ)) (hl : cuts.length = s.thetaBins.length - 1) :
    ∃ h, Io.createRadMaxHdu c ⟨version, now, ext, []⟩ ⟨some radian, nd2 (n := cuts.length) (m := 1) fun i _ => cuts[i]⟩ (energyArg c s.thetaBins)
        (angleArg s.fovOffsetBins) = .ok h ∧
      h.header.get? "EXTNAME" = some (.str (Io.upper ext)) ∧ IsRadMaxHdu c s cuts h := by
  obtain ⟨h, hok⟩ := (Io.accepted_iff (Io.C67_radmax_errors c ⟨version, now, ext, []⟩ ⟨some radian, nd2 (n := cuts.length) (m := 1) fun i _ => cuts[i]⟩ (energyArg c s.thetaBins)
    (angleArg s.fovOffsetBins) true)).mpr (by simp [Io.unitVerdict, energyArg, angleArg, radian, degree])
  obtain ⟨-, h2, h3, h4, h5, -⟩ := Io.C67_radmax c hE hD _ _ _ _ _ h hok
  obtain ⟨k1, k2⟩ := header_of hne h5
  obtain ⟨col, q1, q2, q3, q4⟩ := holds2_of h4
  refine ⟨h, hok, k1, h2, h3, ⟨col, q1, q2, by rw [q3, hl], ?_⟩, k2⟩
  intro i x hx
  obtain ⟨hi, rfl⟩ := List.getElem?_eq_some_iff.mp hx
  exact q4 ⟨i, hi⟩ 0

end

/-! ## C137 -/

/-- **C137** (HDUs) Whenever the script gets to the end, the eleven GADF HDUs can be made. Their names are, in this order, those of effective area and energy dispersion
for the four selections, BACKGROUND, PSF and RAD_MAX; each holds the array computed for it, with the axes it was computed with. The theta cuts are in RAD_MAX with the fine energy
bins. Effective areas and energy dispersions are marked as point-like even where no theta cut was made (NO_CUTS and ONLY_GH). -/
theorem C137_hdus (c : Consts ℝ) (hE : 0 < c.eV) (hD : 0 < c.deg) (version now : String) (inp : Input) (h : ProperSimulations inp) (s : Settings)
    (out : Output s) (hok : main inp = .ok ⟨s, out⟩) :
    ∃ sel no gh th : MaskIrf s, out.irfs = [sel, no, gh, th] ∧ ∃ hdus, irfHdus c version now s out = .ok hdus ∧
      List.Forall₂ (fun (d : String × (Hdu ℝ → Prop)) hdu => hdu.header.get? "EXTNAME" = some (.str d.1) ∧ d.2 hdu)
        (expectedHdus c s out sel no gh th) hdus := by
  obtain ⟨gammas, p, e, sp, f⟩ := main_facts h hok
  obtain ⟨_, _, -, hf, -⟩ := C134_densities inp h s out hok
  have hlen := hf.length_eq
  match hirf : out.irfs, hlen with
  | [sel, no, gh, th], _ =>
    rw [hirf] at hf
    unfold labelled at hf
    cases hf with | cons f1 hf =>
    cases hf with | cons f2 hf =>
    cases hf with | cons f3 hf =>
    cases hf with | cons f4 hf =>
    refine ⟨sel, no, gh, th, rfl, ?_⟩
    obtain ⟨a1, a2, a3, a4⟩ := area_hdu c hE hD version now s "EFFECTIVE_AREA" (by decide) sel.area
    obtain ⟨b1, b2, b3, b4⟩ := dispersion_hdu c hE hD version now s "ENERGY_DISPERSION" (by decide) sel.edisp
    obtain ⟨c1, c2, c3, c4⟩ := area_hdu c hE hD version now s "EFFECTIVE_AREA_NO_CUTS" (by decide) no.area
    obtain ⟨d1, d2, d3, d4⟩ := dispersion_hdu c hE hD version now s "ENERGY_DISPERSION_NO_CUTS" (by decide) no.edisp
    obtain ⟨e1, e2, e3, e4⟩ := area_hdu c hE hD version now s "EFFECTIVE_AREA_ONLY_GH" (by decide) gh.area
    obtain ⟨g1, g2, g3, g4⟩ := dispersion_hdu c hE hD version now s "ENERGY_DISPERSION_ONLY_GH" (by decide) gh.edisp
    obtain ⟨i1, i2, i3, i4⟩ := area_hdu c hE hD version now s "EFFECTIVE_AREA_ONLY_THETA" (by decide) th.area
    obtain ⟨j1, j2, j3, j4⟩ := dispersion_hdu c hE hD version now s "ENERGY_DISPERSION_ONLY_THETA" (by decide) th.edisp
    obtain ⟨k1, k2, k3, k4⟩ := background_hdu c hE hD version now s "BACKGROUND" (by decide) out.background
    obtain ⟨l1, l2, l3, l4⟩ := psf_hdu c hE hD version now s "PSF" (by decide) out.psf
    obtain ⟨m1, m2', m3, m4⟩ := radMax_hdu c hE hD version now s "RAD_MAX" (by decide) out.sel.thetaCuts.cut f.cut
    refine ⟨[a1, b1, c1, d1, e1, g1, i1, j1, k1, l1, m1], ?_, ?_⟩
    · unfold irfHdus
      rw [hirf]
      simp only [List.mapM_cons, List.mapM_nil, bind, Except.bind, f1.1, f2.1, f3.1, f4.1]
      have q1 : ("EFFECTIVE_AREA" ++ "" : String) = "EFFECTIVE_AREA" := rfl
      have q2 : ("ENERGY_DISPERSION" ++ "" : String) = "ENERGY_DISPERSION" := rfl
      have q3 : ("EFFECTIVE_AREA" ++ "_NO_CUTS" : String) = "EFFECTIVE_AREA_NO_CUTS" := rfl
      have q4 : ("ENERGY_DISPERSION" ++ "_NO_CUTS" : String) = "ENERGY_DISPERSION_NO_CUTS" := rfl
      have q5 : ("EFFECTIVE_AREA" ++ "_ONLY_GH" : String) = "EFFECTIVE_AREA_ONLY_GH" := rfl
      have q6 : ("ENERGY_DISPERSION" ++ "_ONLY_GH" : String) = "ENERGY_DISPERSION_ONLY_GH" := rfl
      have q7 : ("EFFECTIVE_AREA" ++ "_ONLY_THETA" : String) = "EFFECTIVE_AREA_ONLY_THETA" := rfl
      have q8 : ("ENERGY_DISPERSION" ++ "_ONLY_THETA" : String) = "ENERGY_DISPERSION_ONLY_THETA" := rfl
      simp only [q1, q2, q3, q4, q5, q6, q7, q8, a2, b2, c2, d2, e2, g2, i2, j2, l2, m2', pure, Except.pure]
      have k2' := k2
      unfold perTeV at k2'
      simp only [k2']
      rfl
    · unfold expectedHdus
      refine .cons ⟨a3, a4⟩ (.cons ⟨b3, b4⟩ (.cons ⟨c3, c4⟩ (.cons ⟨d3, d4⟩ (.cons ⟨e3, e4⟩ (.cons ⟨g3, g4⟩ (.cons ⟨i3, i4⟩ (.cons ⟨j3, j4⟩
        (.cons ⟨k3, k4⟩ (.cons ⟨l3, l4⟩ (.cons ⟨m3, m4⟩ .nil))))))))))

/-- the HDUs of the concrete run -/
example : ∃ s out hdus, main (exInput idealRoot) = .ok ⟨s, out⟩ ∧ irfHdus ⟨1, 1⟩ "0.8.0" "2021-01-01" s out = .ok hdus ∧ hdus.length = 11 := by
  obtain ⟨s, out, h⟩ := exRun
  obtain ⟨_, _, _, _, -, hdus, h1, h2⟩ := C137_hdus ⟨1, 1⟩ one_pos one_pos "0.8.0" "2021-01-01" _ (exInput_proper _) s out h
  exact ⟨s, out, hdus, h, h1, h2.length_eq.symm⟩

end Pyirf.Examples
