import Verif.Memory.KwargsModel
import Verif.Interpolation.MorphProps

/-!
# C140: keyword dictionaries shared between estimators
-/
set_option linter.unusedSectionVars false
set_option linter.unusedSimpArgs false

namespace Pyirf.Kwargs
open Pyirf Pyirf.Interpolation
open scoped Classical

/-! ## Specification -/

/-- In this history the dictionary `d` was passed to the constructor of a PSFTableEstimator (with a PSF in the right unit and a valid axis), as `interpolator_kwargs` or `extrapolator_kwargs`, whether the
construction succeeded or not. -/
def PsfBefore (d : ℕ) (steps : List KStep) : Prop := ∃ a : PdfArgs, KStep.psf a ∈ steps ∧ a.early = .ok () ∧ (a.ikwargs = some d ∨ a.xkwargs = some d)

/-- The caller did not write or delete the normalization in the dictionary `d`. -/
def NotWritten (d : ℕ) (steps : List KStep) : Prop := ∀ v, KStep.write d .normalization v ∉ steps

/-- The steps of the caller that write to dictionaries -/
def isWrite : KStep → Bool
  | .write _ _ _ => true
  | _ => false

/-! ## Lemmas -/

theorem withCone_apply (d : KDict) (k : Kwarg) : d.withCone k = if k = .normalization then some ((d .normalization).getD (.norm .coneSolidAngle)) else d k := by
  unfold KDict.withCone
  cases k <;> cases d _ <;> rfl

theorem setCone_apply (ds : Dicts) (r : Option ℕ) (d : ℕ) (k : Kwarg) :
    ds.setCone r d k = if r = some d ∧ k = .normalization then some ((ds d .normalization).getD (.norm .coneSolidAngle)) else ds d k := by
  unfold Dicts.setCone
  cases r with
  | none => simp
  | some d' =>
    by_cases h : d = d'
    · subst h
      simp only [if_true]
      rw [withCone_apply]
      simp
    · simp [h, Ne.symm h]

theorem psfNew_apply (ds : Dicts) (a : PdfArgs) (d : ℕ) (k : Kwarg) :
    (psfNew ds a).1 d k = if a.early = .ok () ∧ (a.ikwargs = some d ∨ a.xkwargs = some d) ∧ k = .normalization then some ((ds d .normalization).getD (.norm .coneSolidAngle)) else ds d k := by
  unfold psfNew
  cases he : a.early with
  | error e => simp
  | ok u =>
    simp only
    rw [setCone_apply, setCone_apply, setCone_apply]
    by_cases hk : k = .normalization
    · subst hk
      by_cases h1 : a.ikwargs = some d <;> by_cases h2 : a.xkwargs = some d <;> simp [h1, h2]
    · simp [hk]

theorem run_append (ds : Dicts) (steps : List KStep) (s : KStep) : runSteps ds (steps ++ [s]) = (s.run (runSteps ds steps)) := by
  unfold runSteps; rw [List.foldl_append]; rfl

theorem edispNew_fst (ds : Dicts) (a : PdfArgs) : (edispNew ds a).1 = ds := by
  unfold edispNew
  cases a.early <;> rfl

theorem psfBefore_append (d : ℕ) (steps : List KStep) (s : KStep) :
    PsfBefore d (steps ++ [s]) ↔ PsfBefore d steps ∨ ∃ a : PdfArgs, s = .psf a ∧ a.early = .ok () ∧ (a.ikwargs = some d ∨ a.xkwargs = some d) := by
  unfold PsfBefore
  constructor
  · rintro ⟨a, ha, h⟩
    rcases List.mem_append.mp ha with ha | ha
    · exact Or.inl ⟨a, ha, h⟩
    · exact Or.inr ⟨a, (List.mem_singleton.mp ha).symm, h⟩
  · rintro (⟨a, ha, h⟩ | ⟨a, rfl, h⟩)
    · exact ⟨a, List.mem_append_left _ ha, h⟩
    · exact ⟨a, by simp, h⟩

/-! ## C140 -/

/-- **C140** Which normalization a dictionary holds after any history of writes and constructions in which the caller does not write that entry of it: the one it had; if it had none, CONE_SOLID_ANGLE if it was passed to a
PSFTableEstimator, none otherwise. -/
theorem C140_dictionary (ds : Dicts) (steps : List KStep) (d : ℕ) (h : NotWritten d steps) :
    runSteps ds steps d .normalization = match ds d .normalization with
      | some v => some v
      | none => if PsfBefore d steps then some (.norm .coneSolidAngle) else none := by
  induction steps using List.reverseRecOn with
  | nil =>
    have : ¬ PsfBefore d [] := by rintro ⟨a, ha, -⟩; cases ha
    rw [if_neg this]
    show ds d .normalization = _
    cases ds d .normalization <;> rfl
  | append_singleton steps s ih =>
    have hn : NotWritten d steps := fun v hv => h v (List.mem_append_left _ hv)
    specialize ih hn
    rw [run_append]
    cases s with
    | write d' k v =>
      have hne : ¬ (d = d' ∧ Kwarg.normalization = k) := by
        rintro ⟨rfl, rfl⟩
        exact h v (by simp)
      have hb : PsfBefore d (steps ++ [.write d' k v]) ↔ PsfBefore d steps := by
        rw [psfBefore_append]; simp
      simp only [hb]
      show (runSteps ds steps).set d' k v d .normalization = _
      unfold Dicts.set
      rw [if_neg hne, ih]
    | edisp a =>
      have hb : PsfBefore d (steps ++ [.edisp a]) ↔ PsfBefore d steps := by
        rw [psfBefore_append]; simp
      simp only [hb]
      show (edispNew (runSteps ds steps) a).1 d .normalization = _
      rw [edispNew_fst, ih]
    | psf a =>
      have hb : PsfBefore d (steps ++ [.psf a]) ↔ PsfBefore d steps ∨ (a.early = .ok () ∧ (a.ikwargs = some d ∨ a.xkwargs = some d)) := by
        rw [psfBefore_append]; simp
      show (psfNew (runSteps ds steps) a).1 d .normalization = _
      rw [psfNew_apply, ih]
      simp only [hb]
      cases ds d .normalization with
      | some v => simp
      | none =>
        simp only
        by_cases h1 : PsfBefore d steps <;> by_cases h2 : a.early = .ok () ∧ (a.ikwargs = some d ∨ a.xkwargs = some d)
        · simp [h1]
        · simp [h1]
        · rw [if_pos ⟨h2.1, h2.2, trivial⟩, if_neg h1, if_pos (Or.inr h2)]; rfl
        · rw [if_neg (by rintro ⟨x, y, -⟩; exact h2 ⟨x, y⟩), if_neg h1, if_neg (by rintro (x | x); exacts [h1 x, h2 x])]

/-- **C140** All other entries are only what the caller wrote: constructions do not change them. -/
theorem C140_other_entries (ds : Dicts) (steps : List KStep) (d : ℕ) (k : Kwarg) (hk : k ≠ .normalization) : runSteps ds steps d k = runSteps ds (steps.filter isWrite) d k := by
  induction steps using List.reverseRecOn with
  | nil => rfl
  | append_singleton steps s ih =>
    rw [run_append, List.filter_append]
    cases s with
    | write d' k' v =>
      show (runSteps ds steps).set d' k' v d k = runSteps ds (steps.filter isWrite ++ [.write d' k' v]) d k
      rw [run_append]
      show _ = (runSteps ds (steps.filter isWrite)).set d' k' v d k
      unfold Dicts.set
      rw [ih]
    | edisp a =>
      show (edispNew (runSteps ds steps) a).1 d k = runSteps ds (steps.filter isWrite ++ []) d k
      rw [edispNew_fst, List.append_nil, ih]
    | psf a =>
      show (psfNew (runSteps ds steps) a).1 d k = runSteps ds (steps.filter isWrite ++ []) d k
      rw [psfNew_apply, List.append_nil, ih, if_neg (by rintro ⟨-, -, x⟩; exact hk x)]

theorem newObject_value {cls : PdfClass} {kwargs : KDict} {o : PdfObject} (h : newObject cls kwargs = .ok o) (k : Kwarg) (hk : cls.accepts k = true) :
    o.cls = cls ∧ o.value k = some ((kwargs k).getD (kwargDefault k)) := by
  unfold newObject at h
  split at h
  · cases h; exact ⟨rfl, by simp only [if_pos hk]⟩
  · cases h

theorem discreteNew_value {a : PdfArgs} {ik xk : KDict} {e : PdfEstimator} (h : discreteNew a ik xk = .ok e) :
    newObject a.interp ik = .ok e.interpolator ∧ (a.extrap = none ∧ e.extrapolator = none ∨ ∃ x o, a.extrap = some x ∧ e.extrapolator = some o ∧ newObject x xk = .ok o) := by
  unfold discreteNew at h
  split at h
  · cases h
  · split at h
    · cases h
    · split at h
      · cases h
      · rename_i i hi
        split at h
        · rename_i hx
          cases h; exact ⟨hi, Or.inl ⟨hx, rfl⟩⟩
        · rename_i x hx
          split at h
          · cases h
          · split at h
            · cases h
            · rename_i o ho
              cases h; exact ⟨hi, Or.inr ⟨x, o, hx, rfl, ho⟩⟩

/-- **C140** The normalization that the interpolator and the extrapolator of an EnergyDispersionEstimator get, after any history of the dictionaries: that of the dictionary; if it was passed to a PSFTableEstimator before,
CONE_SOLID_ANGLE; otherwise AREA. (Without a dictionary: AREA.) -/
theorem C140_energy_dispersion (ds : Dicts) (steps : List KStep) (a : PdfArgs) (e : PdfEstimator) (h : (edispNew (runSteps ds steps) a).2 = .ok e) :
    (∀ o r, (o = e.interpolator ∧ r = a.ikwargs ∨ some o = e.extrapolator ∧ r = a.xkwargs) → o.cls.accepts .normalization = true →
      (r = none → o.value .normalization = some (.norm .area)) ∧
      ∀ d, r = some d → NotWritten d steps → o.value .normalization = some (match ds d .normalization with
        | some v => v
        | none => if PsfBefore d steps then .norm .coneSolidAngle else .norm .area)) := by
  have hd : discreteNew a ((runSteps ds steps).deref a.ikwargs) ((runSteps ds steps).deref a.xkwargs) = .ok e := by
    unfold edispNew at h
    cases he : a.early with
    | error x => rw [he] at h; cases h
    | ok u => rw [he] at h; exact h
  obtain ⟨hi, hx⟩ := discreteNew_value hd
  have key : ∀ (cls : PdfClass) (o : PdfObject) (r : Option ℕ), newObject cls ((runSteps ds steps).deref r) = .ok o → o.cls.accepts .normalization = true →
      (r = none → o.value .normalization = some (.norm .area)) ∧
      ∀ d, r = some d → NotWritten d steps → o.value .normalization = some (match ds d .normalization with
        | some v => v
        | none => if PsfBefore d steps then .norm .coneSolidAngle else .norm .area) := by
    intro cls o r ho hacc
    have hcls : o.cls = cls := by
      unfold newObject at ho
      split at ho
      · cases ho; rfl
      · cases ho
    have hv := (newObject_value ho .normalization (hcls ▸ hacc)).2
    refine ⟨?_, ?_⟩
    · rintro rfl
      rw [hv]; rfl
    · rintro d rfl hn
      rw [hv]
      show some ((runSteps ds steps d .normalization).getD _) = _
      rw [C140_dictionary ds steps d hn]
      cases ds d .normalization with
      | some v => rfl
      | none =>
        simp only
        by_cases hb : PsfBefore d steps
        · rw [if_pos hb, if_pos hb]; rfl
        · rw [if_neg hb, if_neg hb]; rfl
  rintro o r (⟨rfl, rfl⟩ | ⟨ho, rfl⟩) hacc
  · exact key _ _ _ hi hacc
  · rcases hx with ⟨-, hx⟩ | ⟨x, o', -, hx, ho'⟩
    · rw [hx] at ho; cases ho
    · rw [hx] at ho
      cases ho
      exact key _ _ _ ho' hacc

/-- **C140** The normalization of a PSFTableEstimator does not depend on constructions before it: that of the dictionary, or CONE_SOLID_ANGLE. -/
theorem C140_psf (ds : Dicts) (steps : List KStep) (a : PdfArgs) (e : PdfEstimator) (h : (psfNew (runSteps ds steps) a).2 = .ok e) :
    (∀ o r, (o = e.interpolator ∧ r = a.ikwargs ∨ some o = e.extrapolator ∧ r = a.xkwargs) → o.cls.accepts .normalization = true →
      (r = none → o.value .normalization = some (.norm .coneSolidAngle)) ∧
      ∀ d, r = some d → NotWritten d steps → o.value .normalization = some ((ds d .normalization).getD (.norm .coneSolidAngle))) := by
  set ds0 := runSteps ds steps with hds0
  have hd : discreteNew a (((ds0.setCone a.ikwargs).setCone a.xkwargs).deref a.ikwargs).withCone (((ds0.setCone a.ikwargs).setCone a.xkwargs).deref a.xkwargs).withCone = .ok e := by
    unfold psfNew at h
    cases he : a.early with
    | error x => rw [he] at h; cases h
    | ok u => rw [he] at h; exact h
  obtain ⟨hi, hx⟩ := discreteNew_value hd
  have key : ∀ (cls : PdfClass) (o : PdfObject) (r : Option ℕ), newObject cls (((ds0.setCone a.ikwargs).setCone a.xkwargs).deref r).withCone = .ok o → o.cls.accepts .normalization = true →
      (r = none → o.value .normalization = some (.norm .coneSolidAngle)) ∧
      ∀ d, r = some d → NotWritten d steps → o.value .normalization = some ((ds d .normalization).getD (.norm .coneSolidAngle)) := by
    intro cls o r ho hacc
    have hcls : o.cls = cls := by
      unfold newObject at ho
      split at ho
      · cases ho; rfl
      · cases ho
    have hv := (newObject_value ho .normalization (hcls ▸ hacc)).2
    rw [withCone_apply, if_pos rfl] at hv
    refine ⟨?_, ?_⟩
    · rintro rfl
      rw [hv]; rfl
    · rintro d rfl hn
      rw [hv]
      show some (Option.getD (some (((ds0.setCone a.ikwargs).setCone a.xkwargs d .normalization).getD _)) _) = _
      rw [setCone_apply, setCone_apply, hds0, C140_dictionary ds steps d hn]
      cases ds d .normalization with
      | some v =>
        by_cases h1 : a.ikwargs = some d <;> by_cases h2 : a.xkwargs = some d <;> simp [h1, h2]
      | none =>
        by_cases h1 : a.ikwargs = some d <;> by_cases h2 : a.xkwargs = some d <;> by_cases hb : PsfBefore d steps <;> simp [h1, h2, hb]
  rintro o r (⟨rfl, rfl⟩ | ⟨ho, rfl⟩) hacc
  · exact key _ _ _ hi hacc
  · rcases hx with ⟨-, hx⟩ | ⟨x, o', -, hx, ho'⟩
    · rw [hx] at ho; cases ho
    · rw [hx] at ho
      cases ho
      exact key _ _ _ ho' hacc

/-- **C140** (deviation) With DiscretePDFNearestNeighborSearcher as interpolator and a dictionary without normalization, an EnergyDispersionEstimator can be made before the dictionary is passed to a PSFTableEstimator, and
raises TypeError after that. -/
theorem C140_nearest_neighbor (ds : Dicts) (steps : List KStep) (d : ℕ) (hn : NotWritten d steps) (h0 : ds d .normalization = none)
    (hq : runSteps ds steps d .quantileResolution = none) (a : PdfArgs) (he : a.early = .ok ()) (hl : a.late = .ok ()) (hi : a.interp = .nearestNeighbor) (hk : a.ikwargs = some d) (hx : a.extrap = none) :
    (PsfBefore d steps → (edispNew (runSteps ds steps) a).2 = .error .typeError) ∧ (¬ PsfBefore d steps → ∃ e, (edispNew (runSteps ds steps) a).2 = .ok e) := by
  have hd := C140_dictionary ds steps d hn
  rw [h0] at hd
  simp only at hd
  constructor
  · intro hb
    rw [if_pos hb] at hd
    unfold edispNew discreteNew newObject
    simp only [he, hl, hi, hk, isInterpolator, Bool.true_eq_false, if_false]
    rw [if_neg]
    intro hc
    have := hc .normalization (by simp) (by show (runSteps ds steps d .normalization).isSome = true; rw [hd]; rfl)
    cases this
  · intro hb
    rw [if_neg hb] at hd
    unfold edispNew discreteNew newObject
    simp only [he, hl, hi, hk, hx, isInterpolator, Bool.true_eq_false, if_false]
    rw [if_pos]
    · exact ⟨_, rfl⟩
    · intro k _ hs
      change (runSteps ds steps d k).isSome = true at hs
      cases k with
      | normalization => rw [hd] at hs; cases hs
      | quantileResolution => rw [hq] at hs; cases hs
      | normOrd => rfl

/-- **C140** (deviation) The normalization changes the estimates: at a grid point (not the last one) MomentMorphInterpolator with AREA returns a template that is normalized in that way (C56); with CONE_SOLID_ANGLE it returns
something else, unless the template happens to have the solid angle integral 1. -/
theorem C140_estimates_differ {n : ℕ} {C : Type*} {edges : Fin (n + 2) → ℝ} (he : GoodEdges .area edges) (hc : GoodEdges .coneSolidAngle edges) (grid : List ℝ) (hs : grid.Pairwise (· < ·))
    (pdf : Fin grid.length → C → Fin (n + 1) → ℝ) (hp : ∀ j c b, 0 ≤ pdf j c b) (i : ℕ) (hi : i + 1 < grid.length) (c : C) (h1 : pdfIntegral .area edges (pdf ⟨i, by omega⟩ c) = 1)
    (z1 : ¬ NearlyEmpty (pdf ⟨i, by omega⟩ c)) (z2 : ¬ NearlyEmpty (pdf ⟨i + 1, hi⟩ c)) (hne : pdfIntegral .coneSolidAngle edges (pdf ⟨i, by omega⟩ c) ≠ 1) :
    ∃ r r', morphInterpolate1D .area edges grid pdf grid[i] = .ok r ∧ (∀ b, r c b = .fin (pdf ⟨i, by omega⟩ c b)) ∧
      morphInterpolate1D .coneSolidAngle edges grid pdf grid[i] = .ok r' ∧ r' c ≠ r c := by
  have hlt : grid[i] < grid[i + 1] := List.pairwise_iff_getElem.mp hs i (i + 1) (by omega) hi (by omega)
  obtain ⟨r, hr, hrc⟩ := C56_grid_point_1d he grid hs pdf hp i hi
  obtain ⟨r', hr', hrc'⟩ := C55_interpolate_1d hc grid hs pdf hp grid[i] i hi le_rfl hlt
  have hb := hrc c h1 z1 z2
  refine ⟨r, r', hr, hb, hr', fun heq => ?_⟩
  obtain ⟨g, hg, hg0, hg1⟩ := (hrc' c).1
  have hgp : g = pdf ⟨i, by omega⟩ c := by
    funext b
    have := hg b
    rw [heq, hb b] at this
    exact (FV.fin.inj this).symm
  rcases hg1 with hg1 | hg1
  · rw [hgp] at hg1; exact hne hg1
  · rw [← hgp] at h1
    unfold pdfIntegral at h1
    simp [hg1] at h1

/-! ## The hypotheses can be met -/

/-- A PSFTableEstimator and then an EnergyDispersionEstimator with the same empty dictionary: the second gets CONE_SOLID_ANGLE; alone it would get AREA. -/
example : ∃ (a : PdfArgs) (e e' : PdfEstimator), a.ikwargs = some 0 ∧ (edispNew (runSteps (fun _ _ => none) [.psf a]) a).2 = .ok e ∧ e.interpolator.value .normalization = some (.norm .coneSolidAngle) ∧
    (edispNew (runSteps (fun _ _ => none) []) a).2 = .ok e' ∧ e'.interpolator.value .normalization = some (.norm .area) := by
  have ex : ∀ (ds : Dicts), ds 0 .quantileResolution = none → ds 0 .normOrd = none → ∃ e, (edispNew ds ⟨.ok (), .ok (), .momentMorph, some 0, none, none⟩).2 = .ok e ∧ e.interpolator.cls = .momentMorph := by
    intro ds h1 h2
    unfold edispNew discreteNew newObject
    simp only [isInterpolator, Bool.true_eq_false, if_false]
    rw [if_pos]
    · exact ⟨_, rfl, rfl⟩
    · intro k _ hs
      change (ds 0 k).isSome = true at hs
      cases k with
      | normalization => rfl
      | quantileResolution => rw [h1] at hs; cases hs
      | normOrd => rw [h2] at hs; cases hs
  set a : PdfArgs := ⟨.ok (), .ok (), .momentMorph, some 0, none, none⟩ with ha
  have hother : ∀ k, k ≠ Kwarg.normalization → runSteps (fun _ _ => none) [.psf a] 0 k = none := fun k hk => C140_other_entries _ _ _ _ hk
  obtain ⟨e, he, hc⟩ := ex (runSteps (fun _ _ => none) [.psf a]) (hother _ (by simp)) (hother _ (by simp))
  obtain ⟨e', he', hc'⟩ := ex (runSteps (fun _ _ => none) []) rfl rfl
  refine ⟨a, e, e', rfl, he, ?_, he', ?_⟩
  · have h := ((C140_energy_dispersion _ _ a e he) e.interpolator a.ikwargs (Or.inl ⟨rfl, rfl⟩) (by rw [hc]; rfl)).2 0 rfl (by intro v hv; simp at hv)
    rw [h]
    simp only
    rw [if_pos ⟨a, by simp, rfl, Or.inl rfl⟩]
  · have h := ((C140_energy_dispersion _ _ a e' he') e'.interpolator a.ikwargs (Or.inl ⟨rfl, rfl⟩) (by rw [hc']; rfl)).2 0 rfl (by intro v hv; cases hv)
    rw [h]
    simp only
    rw [if_neg (by rintro ⟨a, ha, -⟩; cases ha)]

/-- Templates for which the estimates differ. -/
example : ∃ r r', morphInterpolate1D .area (![0, 1, 3] : Fin 3 → ℝ) [0, 1] badPdf ([0, 1] : List ℝ)[0] = .ok r ∧ (∀ b, r () b = .fin (badPdf ⟨0, by simp⟩ () b)) ∧
    morphInterpolate1D .coneSolidAngle (![0, 1, 3] : Fin 3 → ℝ) [0, 1] badPdf ([0, 1] : List ℝ)[0] = .ok r' ∧ r' () ≠ r () := by
  have hcone : GoodEdges .coneSolidAngle (![0, 1, 3] : Fin 3 → ℝ) := by
    refine ⟨edges013.strict, fun _ i => ?_⟩
    have := Real.pi_gt_three
    fin_cases i <;> simp <;> linarith
  refine C140_estimates_differ edges013 hcone [0, 1] (by simp) badPdf ?_ 0 (by simp) () ?_ ?_ ?_ ?_
  · intro j c b; unfold badPdf
    split <;> fin_cases b <;> norm_num
  · unfold pdfIntegral binMeasure
    rw [sum2]
    simp [badPdf]
  · unfold NearlyEmpty
    rw [sum2]
    simp [badPdf]; norm_num
  · unfold NearlyEmpty
    rw [sum2]
    simp [badPdf]; norm_num
  · unfold pdfIntegral binMeasure
    rw [sum2]
    have h1 := Real.cos_one_le
    have h2 := Real.pi_gt_three
    simp [badPdf, Spectral.ringSolidAngle, integral_sin]
    nlinarith

/-- **C140** (defaults) What an object has been given for a keyword it takes: the entry of the dictionary, else area normalization, a quantile resolution of 0.001, and the order 2 of the norm. -/
theorem C140_defaults {cls : PdfClass} {kwargs : KDict} {o : PdfObject} (h : newObject cls kwargs = .ok o) :
    o.cls = cls ∧ (∀ k, cls.accepts k = false → o.value k = none ∧ kwargs k = none) ∧ (∀ k v, kwargs k = some v → o.value k = some v) ∧
    (cls.accepts .normalization = true → kwargs .normalization = none → o.value .normalization = some (.norm .area)) ∧
    (cls.accepts .quantileResolution = true → kwargs .quantileResolution = none → o.value .quantileResolution = some (.number (1 / 1000))) ∧
    (cls.accepts .normOrd = true → kwargs .normOrd = none → o.value .normOrd = some (.number 2)) := by
  unfold newObject at h
  split at h
  · rename_i hall
    cases h
    have hall' : ∀ k, (kwargs k).isSome = true → cls.accepts k = true := fun k => hall k (by cases k <;> simp)
    refine ⟨rfl, fun k hk => ⟨if_neg (by rw [hk]; simp), ?_⟩, fun k v hv => ?_, fun ha hn => ?_, fun ha hn => ?_, fun ha hn => ?_⟩
    · cases hv : kwargs k with
      | none => rfl
      | some v => rw [hall' k (by rw [hv]; rfl)] at hk; cases hk
    · show (if cls.accepts k = true then _ else _) = _
      rw [if_pos (hall' k (by rw [hv]; rfl)), hv]; rfl
    all_goals
      show (if cls.accepts _ = true then _ else _) = _
      rw [if_pos ha, hn]; rfl
  · cases h

/-- **C140** (classes) Without keyword dictionaries and with proper data an estimator of an energy dispersion is made exactly if the interpolator is one of QuantileInterpolator, MomentMorphInterpolator and
DiscretePDFNearestNeighborSearcher, and the extrapolator None, DiscretePDFNearestNeighborSearcher or MomentMorphNearestSimplexExtrapolator; every other class raises a TypeError. -/
theorem C140_classes (ds : Dicts) (a : PdfArgs) (he : a.early = .ok ()) (hl : a.late = .ok ()) (hi : a.ikwargs = none) (hx : a.xkwargs = none) :
    if (a.interp = .quantile ∨ a.interp = .momentMorph ∨ a.interp = .nearestNeighbor) ∧ (a.extrap = none ∨ a.extrap = some .nearestNeighbor ∨ a.extrap = some .momentMorphNearestSimplex) then
      ∃ e, (edispNew ds a).2 = .ok e ∧ e.interpolator.cls = a.interp ∧ e.extrapolator.map PdfObject.cls = a.extrap
    else (edispNew ds a).2 = .error .typeError := by
  have hnew : ∀ cls, ∃ o, newObject cls (fun _ => none) = .ok o ∧ o.cls = cls := fun cls => ⟨_, if_pos (by intro k _ h; cases h), rfl⟩
  unfold edispNew discreteNew
  simp only [he, hl, hi, hx, Dicts.deref]
  obtain ⟨o, ho, hoc⟩ := hnew a.interp
  rw [ho]
  cases hc : a.interp <;> simp only [isInterpolator, reduceCtorEq, or_true, true_or, or_self, false_and, true_and, if_true, if_false, Bool.true_eq_false]
  all_goals
    cases hxx : a.extrap with
    | none => simp [hoc, hc]
    | some x =>
      obtain ⟨o2, ho2, hoc2⟩ := hnew x
      cases x <;> simp [isExtrapolator, hoc, hc, ho2, hoc2]

end Pyirf.Kwargs
