import Verif.Units.CutOptLemmas
import Verif.CutOpt.TotalProps

/-!
# C156: the optimization of cuts does not depend on the units of the arguments
-/
set_option linter.unusedSectionVars false
set_option linter.unusedSimpArgs false

namespace Pyirf.Units
open Pyirf Pyirf.Np Pyirf.Io Pyirf.Binning Pyirf.Cuts Pyirf.Sensitivity Pyirf.CutOpt

/-! ## Specification -/

/-- The signal events with energies and angles in SI units. -/
noncomputable def siSignal (c : CtxQ) : EvTable :=
  ⟨c.signal.hasWeight, c.signal.hasParticle, c.signal.rows.map fun e => { e with energy := Units.si c.sigEnergy e.energy, theta := Units.si c.sigTheta e.theta }⟩

/-- The background events with energies and offsets in SI units. -/
noncomputable def siBackground (c : CtxQ) : EvTable :=
  ⟨c.background.hasWeight, c.background.hasParticle, c.background.rows.map fun e => { e with energy := Units.si c.bgEnergy e.energy, offset := Units.si c.bgOffset e.offset }⟩

/-- All arguments in SI units (radian for angles). -/
noncomputable def CtxQ.si (c : CtxQ) : CutOpt.Ctx :=
  ⟨c.brentq, c.sig, c.th, siSignal c, siBackground c, c.bins.val.map (Units.si c.bins.unit), c.alpha, Units.si c.offMin.unit c.offMin.val, Units.si c.offMax.unit c.offMax.val⟩

/-- The bounds of the theta cuts in SI units. -/
noncomputable def GridQ.si (g : GridQ) : Grid := ⟨g.mults, g.ghEff, g.thetaEff, Units.si g.thetaMin.unit g.thetaMin.val, Units.si g.thetaMax.unit g.thetaMax.val, g.thetaIsList⟩

/-- The results in SI units. -/
noncomputable def BestQ.si (b : BestQ) : Best := ⟨b.sens.si, b.mult, b.theta.map (Units.si b.thetaUnit), b.thetaEff, b.gh, b.ghEff⟩

/-- The results in SI units. -/
noncomputable def BestGhQ.si (b : BestGhQ) : BestGh := ⟨b.sens.si, b.gh, b.ghEff⟩

/-- All units have a positive size. -/
def CtxQ.Pos (c : CtxQ) : Prop :=
  0 < c.sigEnergy.scale ∧ 0 < c.sigTheta.scale ∧ 0 < c.bgEnergy.scale ∧ 0 < c.bgOffset.scale ∧ 0 < c.bins.unit.scale ∧ 0 < c.offMin.unit.scale ∧ 0 < c.offMax.unit.scale

/-- Energies and bins have the same dimension, angles are angles. -/
def CtxQ.Dims (c : CtxQ) : Prop :=
  c.bins.unit.dim = c.sigEnergy.dim ∧ c.bins.unit.dim = c.bgEnergy.dim ∧ c.sigTheta.dim = radian.dim ∧ c.bgOffset.dim = radian.dim ∧ c.offMin.unit.dim = radian.dim ∧ c.offMax.unit.dim = radian.dim

/-! ## Lemmas -/

theorem select_map {α β : Type} (f : α → β) (rows : List α) (mask : List Bool) : select (rows.map f) mask = (select rows mask).map f := by
  unfold select
  rw [List.zip_map_left, List.filter_map, List.map_map, List.map_map]
  rfl

theorem toTable_si (names : List String) (hn : ∀ n ∈ names, ¬ isBin n) {un : PhysUnit ℝ} (hu : 0 < un.scale) (bins : List (FV ℝ)) (C : Cols ℝ) :
    scaleBinColumns un.scale (toTable names ⟨bins.dropLast, bins.tail, binCenter bins, C⟩) =
      toTable names ⟨(bins.map (Units.si un)).dropLast, (bins.map (Units.si un)).tail, binCenter (bins.map (Units.si un)), C⟩ := by
  have hb : binCenter (bins.map (Units.si un)) = (binCenter bins).map (Units.si un) := binCenter_scale hu bins
  unfold scaleBinColumns toTable
  rw [hb]
  simp only [List.map_append, List.map_cons, List.map_nil, List.map_dropLast, List.map_tail]
  congr 1
  congr 1
  refine (List.map_congr_left (g := id) ?_).trans (List.map_id _)
  intro col hcol
  obtain ⟨name, hm, he⟩ := List.mem_filterMap.1 hcol
  cases hC : C name with
  | none => rw [hC] at he; cases he
  | some v =>
    rw [hC] at he
    simp only [Option.map_some, Option.some.injEq] at he
    subst he
    exact if_neg (hn name hm)

theorem countNames_not_bin {hp : Bool} {rows : List (Event ℝ)} : ∀ n ∈ countNames hp rows, ¬ isBin n := by
  intro n h hb
  have := countNames_n h
  unfold isBin at hb
  tauto

theorem histTableQ_si (hw hp : Bool) (rows : List (Event ℝ)) {un : PhysUnit ℝ} (hu : 0 < un.scale) (bins : Q (List (FV ℝ))) (hb : 0 < bins.unit.scale) (hd : bins.unit.dim = un.dim) :
    (histTableQ hw hp rows un bins).map TableQ.si = histTable hw hp (rows.map fun e => ⟨Units.si un e.key, e.weight, e.particle⟩) (bins.val.map (Units.si bins.unit)) ∧
    ∀ q, histTableQ hw hp rows un bins = .ok q → q.unit = bins.unit := by
  unfold histTableQ histTable
  rw [checkDim_bind, if_pos hd]
  have h := createHistogramTable_scale hu (bins.listIn un) ⟨hw, hp, rows⟩
  have e1 : (bins.listIn un).map (FV.fin un.scale * ·) = bins.val.map (Units.si bins.unit) := by
    unfold Q.listIn
    rw [List.map_map]
    exact List.map_congr_left fun x _ => si_conv hu x
  rw [e1] at h
  have e2 : scaleEvents un.scale ⟨hw, hp, rows⟩ = ⟨hw, hp, rows.map fun e => ⟨Units.si un e.key, e.weight, e.particle⟩⟩ := rfl
  rw [e2] at h
  have e3 : countNames hp (rows.map fun e => (⟨Units.si un e.key, e.weight, e.particle⟩ : Event ℝ)) = countNames hp rows := countNames_scale un.scale hp rows
  rw [e3, createHistogramTable_shape ⟨hw, hp, rows.map fun e => ⟨Units.si un e.key, e.weight, e.particle⟩⟩, h]
  generalize createHistogramTable _ (bins.listIn un) = r
  cases r with
  | error e => exact ⟨rfl, fun q h => by cases h⟩
  | ok t =>
    refine ⟨?_, fun q h => by injection h with h; rw [← h]⟩
    show Except.ok (scaleBinColumns bins.unit.scale _) = Except.ok _
    rw [toTable_si _ countNames_not_bin hb]

/-- the first three columns, and only these, are columns of the bins -/
def BinsFirst (t : Table (FV ℝ)) : Prop :=
  ∃ l h c rest, t.cols = ("reco_energy_low", l) :: ("reco_energy_high", h) :: ("reco_energy_center", c) :: rest ∧ ∀ x ∈ rest, ¬ isBin x.1

theorem BinsFirst.set {t : Table (FV ℝ)} (h : BinsFirst t) {name : String} (hn : ¬ isBin name) (col : List (FV ℝ)) : BinsFirst (t.set name col) := by
  obtain ⟨l, hh, c, rest, e, hr⟩ := h
  have n1 : ¬ "reco_energy_low" = name := fun e => hn (Or.inl e.symm)
  have n2 : ¬ "reco_energy_high" = name := fun e => hn (Or.inr (Or.inl e.symm))
  have n3 : ¬ "reco_energy_center" = name := fun e => hn (Or.inr (Or.inr e.symm))
  unfold Table.set
  split
  · refine ⟨l, hh, c, rest.map fun c => if c.1 = name then (name, col) else c, ?_, ?_⟩
    · simp only [e, List.map_cons, if_neg n1, if_neg n2, if_neg n3]
    · intro x hx
      obtain ⟨y, hy, rfl⟩ := List.mem_map.1 hx
      split
      · exact hn
      · exact hr y hy
  · refine ⟨l, hh, c, rest ++ [(name, col)], by simp [e], ?_⟩
    intro x hx
    rcases List.mem_append.1 hx with hx | hx
    · exact hr x hx
    · rw [List.mem_singleton.1 hx]; exact hn

theorem BinsFirst.foldl {t : Table (FV ℝ)} (h : BinsFirst t) (l : List (String × List (FV ℝ))) (hl : ∀ c ∈ l, ¬ isBin c.1) : BinsFirst (l.foldl (fun t c => t.set c.1 c.2) t) := by
  induction l generalizing t with
  | nil => exact h
  | cons c l ih => exact ih (h.set (hl c List.mem_cons_self) _) fun d hd => hl d (List.mem_cons_of_mem _ hd)

theorem calculateSensitivityQ_binsFirst {brentq : RootFn} {sig : SigFn} {s b : TableQ} {alpha : FV ℝ} {th : Thresholds} {q : TableQ} (h : calculateSensitivityQ brentq sig s b alpha th = .ok q) :
    BinsFirst q.table := by
  unfold calculateSensitivityQ at h
  simp only [bind, Except.bind] at h
  repeat' split at h
  all_goals first | (cases h; done) | skip
  injection h with h
  rw [← h]
  refine BinsFirst.set (BinsFirst.set (BinsFirst.foldl ?_ _ fun c hc => not_bin_of_copied (List.mem_filter.1 hc).2) (by decide) _) (by decide) _
  refine ⟨_, _, _, _, rfl, ?_⟩
  intro x hx
  simp only [List.mem_cons, List.not_mem_nil, or_false] at hx
  rcases hx with rfl | rfl | rfl | rfl <;> (dsimp only; decide)

/-- what is known of the sensitivity tables of one optimization -/
def GoodTable (un : PhysUnit ℝ) (q : TableQ) : Prop := q.unit = un ∧ BinsFirst q.table

theorem scaleBinColumns_cons (k : ℝ) {l h c : List (FV ℝ)} {rest : List (String × List (FV ℝ))} (hr : ∀ x ∈ rest, ¬ isBin x.1) :
    (scaleBinColumns k ⟨("reco_energy_low", l) :: ("reco_energy_high", h) :: ("reco_energy_center", c) :: rest⟩).cols =
      ("reco_energy_low", l.map (FV.fin k * ·)) :: ("reco_energy_high", h.map (FV.fin k * ·)) :: ("reco_energy_center", c.map (FV.fin k * ·)) :: rest := by
  unfold scaleBinColumns
  simp only [List.map_cons]
  congr 3
  refine (List.map_congr_left (g := id) ?_).trans (List.map_id _)
  intro x hx
  exact if_neg (hr x hx)

theorem scaleBinColumns_mk (k : ℝ) {l h c : List (FV ℝ)} {rest : List (String × List (FV ℝ))} (hr : ∀ x ∈ rest, ¬ isBin x.1) :
    scaleBinColumns k ⟨("reco_energy_low", l) :: ("reco_energy_high", h) :: ("reco_energy_center", c) :: rest⟩ =
      ⟨("reco_energy_low", l.map (FV.fin k * ·)) :: ("reco_energy_high", h.map (FV.fin k * ·)) :: ("reco_energy_center", c.map (FV.fin k * ·)) :: rest⟩ :=
  congrArg Table.mk (scaleBinColumns_cons k hr)

theorem zip_not_bin (F : String × List (FV ℝ) → String × List (FV ℝ) → String × List (FV ℝ)) (hF : ∀ c o, (F c o).1 = c.1) {r1 r2 : List (String × List (FV ℝ))} (n1 : ∀ x ∈ r1, ¬ isBin x.1) :
    ∀ x ∈ List.zipWith F r1 r2, ¬ isBin x.1 := by
  intro x hx
  rw [List.mem_iff_getElem] at hx
  obtain ⟨k, hk, rfl⟩ := hx
  rw [List.length_zipWith] at hk
  rw [List.getElem_zipWith, hF]
  exact n1 _ (List.getElem_mem _)

theorem setRow_si {un : PhysUnit ℝ} (hu : 0 < un.scale) {t o : TableQ} (ht : GoodTable un t) (ho : GoodTable un o) (i : ℕ) :
    (t.setRow i o).map TableQ.si = t.si.setRow i o.si ∧ ∀ q, t.setRow i o = .ok q → GoodTable un q := by
  obtain ⟨tu, tt⟩ := t
  obtain ⟨ou, ot⟩ := o
  obtain ⟨rfl, l1, h1, c1, r1, e1, n1⟩ := ht
  obtain ⟨e, l2, h2, c2, r2, e2, n2⟩ := ho
  dsimp only at e hu e1 e2
  subst e
  obtain ⟨tt⟩ := tt
  obtain ⟨ot⟩ := ot
  dsimp only at e1 e2
  subst e1 e2
  have hcols : (TableQ.colsIn ⟨ou, ⟨("reco_energy_low", l2) :: ("reco_energy_high", h2) :: ("reco_energy_center", c2) :: r2⟩⟩ ou).cols =
      ("reco_energy_low", l2) :: ("reco_energy_high", h2) :: ("reco_energy_center", c2) :: r2 := by
    unfold TableQ.colsIn
    refine (List.map_congr_left (g := id) ?_).trans (List.map_id _)
    intro x _
    split
    · show (x.1, x.2.map (conv ou ou)) = x
      have : conv ou ou = id := funext fun y => conv_self hu y
      rw [this, List.map_id]
    · rfl
  unfold TableQ.setRow Table.setRow
  rw [hcols]
  unfold TableQ.si
  rw [scaleBinColumns_cons _ n1, scaleBinColumns_cons _ n2]
  simp only [List.length_cons, ne_eq, Nat.add_right_cancel_iff, List.zipWith_cons_cons]
  by_cases hl : r1.length = r2.length
  · simp only [hl, not_true_eq_false, if_false]
    constructor
    · simp only [Except.map]
      congr 1
      refine (scaleBinColumns_mk ou.scale ?_).trans ?_
      · intro x hx
        refine zip_not_bin _ ?_ n1 x hx
        intro c o
        rfl
      exact congrArg Table.mk (congrArg₂ List.cons (congrArg (Prod.mk _) (by rw [List.getElem?_map]; cases l2[i]? <;> simp [List.map_set])) (congrArg₂ List.cons (congrArg (Prod.mk _) (by rw [List.getElem?_map]; cases h2[i]? <;> simp [List.map_set]))
        (congrArg₂ List.cons (congrArg (Prod.mk _) (by rw [List.getElem?_map]; cases c2[i]? <;> simp [List.map_set])) rfl)))
    · intro q hq
      injection hq with hq
      rw [← hq]
      refine ⟨rfl, _, _, _, _, rfl, ?_⟩
      intro x hx
      refine zip_not_bin _ ?_ n1 x hx
      intro c o
      rfl
  · simp only [hl, not_false_eq_true, if_true]
    exact ⟨rfl, fun q h => by cases h⟩

theorem sensitivityOf_eq (c : CutOpt.Ctx) (s b : List Bool) (theta : CutTable ℝ (FV ℝ)) :
    sensitivityOf c s b theta = (histTable c.signal.hasWeight c.signal.hasParticle ((select c.signal.rows s).map Ev.toEvent) c.bins).bind fun sh =>
      (estimateBackground c.background.hasWeight c.background.hasParticle ((select c.background.rows b).map Ev.toBg) c.bins (theta.center.zip theta.cut) c.alpha c.offMin c.offMax).bind fun bh =>
        calculateSensitivity c.brentq c.sig sh bh c.alpha c.th := by
  unfold sensitivityOf
  cases histTable c.signal.hasWeight c.signal.hasParticle ((select c.signal.rows s).map Ev.toEvent) c.bins with
  | error e => rfl
  | ok sh =>
    simp only [Except.bind]
    cases estimateBackground c.background.hasWeight c.background.hasParticle ((select c.background.rows b).map Ev.toBg) c.bins (theta.center.zip theta.cut) c.alpha c.offMin c.offMax <;> rfl

theorem sensitivityOfQ_si {c : CtxQ} (hp : c.Pos) (hd : c.Dims) (s b : List Bool) (theta : CutsQ (FV ℝ)) (h1 : 0 < theta.bin.scale) (h2 : 0 < theta.cut.scale)
    (d1 : theta.bin.dim = c.bins.unit.dim) (d2 : theta.cut.dim = radian.dim) :
    (sensitivityOfQ c s b theta).map TableQ.si = sensitivityOf c.si s b theta.si ∧ ∀ q, sensitivityOfQ c s b theta = .ok q → GoodTable c.bins.unit q := by
  obtain ⟨p1, p2, p3, p4, p5, p6, p7⟩ := hp
  obtain ⟨q1, q2, q3, q4, q5, q6⟩ := hd
  rw [sensitivityOf_eq]
  unfold sensitivityOfQ
  obtain ⟨a1, a2⟩ := histTableQ_si c.signal.hasWeight c.signal.hasParticle ((select c.signal.rows s).map Ev.toEvent) p1 c.bins p5 q1
  have e1 : (select c.si.signal.rows s).map Ev.toEvent = ((select c.signal.rows s).map Ev.toEvent).map fun e => ⟨Units.si c.sigEnergy e.key, e.weight, e.particle⟩ := by
    show (select (List.map _ c.signal.rows) s).map Ev.toEvent = _
    rw [select_map, List.map_map, List.map_map]
    rfl
  have e2 : (select c.si.background.rows b).map Ev.toBg =
      OffTable.siRows ⟨c.bgEnergy, c.bgOffset, c.background.hasWeight, c.background.hasParticle, (select c.background.rows b).map Ev.toBg⟩ := by
    show (select (List.map _ c.background.rows) b).map Ev.toBg = _
    unfold OffTable.siRows
    rw [select_map, List.map_map, List.map_map]
    rfl
  have e3 : theta.si.center.zip theta.si.cut = ThetaTable.siRows ⟨theta.bin, theta.cut, theta.table.center.zip theta.table.cut⟩ := by
    unfold CutsQ.si mapCuts ThetaTable.siRows
    exact List.zip_map
  have b1 := C153_background_si ⟨c.bgEnergy, c.bgOffset, c.background.hasWeight, c.background.hasParticle, (select c.background.rows b).map Ev.toBg⟩ p4 p3 c.bins p5
    ⟨theta.bin, theta.cut, theta.table.center.zip theta.table.cut⟩ h1 h2 c.alpha c.offMin c.offMax p6 p7 ⟨⟨q5.trans q4.symm, q6.trans q4.symm, q2⟩, d1, d2, q6, q5⟩
  rw [e1, e2, e3]
  rw [show histTable c.si.signal.hasWeight c.si.signal.hasParticle (((select c.signal.rows s).map Ev.toEvent).map fun e => ⟨Units.si c.sigEnergy e.key, e.weight, e.particle⟩) c.si.bins =
      (histTableQ c.signal.hasWeight c.signal.hasParticle ((select c.signal.rows s).map Ev.toEvent) c.sigEnergy c.bins).map TableQ.si from a1.symm]
  have b2 := b1.symm
  dsimp only at b2
  rw [show estimateBackground c.si.background.hasWeight c.si.background.hasParticle _ c.si.bins _ c.si.alpha c.si.offMin c.si.offMax = _ from b2]
  cases hx : histTableQ c.signal.hasWeight c.signal.hasParticle ((select c.signal.rows s).map Ev.toEvent) c.sigEnergy c.bins with
  | error e => exact ⟨rfl, fun q h => by cases h⟩
  | ok sh =>
    cases hy : estimateBackgroundQ ⟨c.bgEnergy, c.bgOffset, c.background.hasWeight, c.background.hasParticle, (select c.background.rows b).map Ev.toBg⟩ c.bins
        ⟨theta.bin, theta.cut, theta.table.center.zip theta.table.cut⟩ c.alpha c.offMin c.offMax with
    | error e => exact ⟨rfl, fun q h => by cases h⟩
    | ok bh =>
      have u1 := a2 _ hx
      have u2 := estimateBackgroundQ_unit hy
      obtain ⟨k1, k2⟩ := C155_sensitivity_si c.brentq c.sig sh bh c.alpha c.th (by rw [u1]; exact p5) (by rw [u2]; exact p5) (by rw [u1, u2])
      refine ⟨k1, fun q hq => ⟨(k2 q hq).trans u1, calculateSensitivityQ_binsFirst hq⟩⟩

theorem mapM_ok_mem {α β : Type} {f : α → Except Err β} {l : List α} {r : List β} (h : l.mapM f = .ok r) : ∀ y ∈ r, ∃ x ∈ l, f x = .ok y := by
  induction l generalizing r with
  | nil => injection h with h; subst h; intro y hy; cases hy
  | cons a l ih =>
    rw [List.mapM_cons] at h
    cases hfa : f a with
    | error e => rw [hfa] at h; cases h
    | ok v =>
      rw [hfa] at h
      cases hr : l.mapM f with
      | error e => rw [hr] at h; cases h
      | ok vs =>
        rw [hr] at h
        injection h with h
        subst h
        intro y hy
        rcases List.mem_cons.1 hy with rfl | hy
        · exact ⟨a, List.mem_cons_self, hfa⟩
        · obtain ⟨x, hx, e⟩ := ih hr y hy
          exact ⟨x, List.mem_cons_of_mem _ hx, e⟩

theorem itemAt_map {α β : Type} (f : α → β) (l : List α) (i : ℕ) : itemAt (l.map f) i = (itemAt l i).map f := by
  unfold itemAt
  rw [List.getElem?_map]
  cases l[i]? <;> rfl

theorem itemAt_mem {α : Type} {l : List α} {i : ℕ} {x : α} (h : itemAt l i = .ok x) : x ∈ l := by
  unfold itemAt at h
  split at h
  · injection h with h; subst h; exact List.mem_of_getElem? (by assumption)
  · cases h

theorem column_si (t : CutsQ (List (FV ℝ))) (j : ℕ) : (t.column j).si = cutColumn t.siRows j := by
  unfold CutsQ.column CutsQ.si CutsQ.siRows cutColumn mapCuts
  simp only [List.map_map]
  congr 1
  apply List.map_congr_left
  intro row _
  simp only [Function.comp, List.getD_eq_getElem?_getD, List.getElem?_map]
  cases row[j]? <;> rfl

theorem scanOneQ_si {c : CtxQ} (hp : c.Pos) (hd : c.Dims) (sIdx bIdx : List (ℤ × Bool)) (m : FV ℝ) (theta gh : CutsQ (FV ℝ)) (h1 : theta.bin = c.bins.unit) (h2 : theta.cut = c.sigTheta)
    (h3 : gh.cut = unitOne) :
    (scanOneQ c sIdx bIdx m theta gh).map TableQ.si = scanOne c.si sIdx bIdx m theta.si gh.si ∧ ∀ q, scanOneQ c sIdx bIdx m theta gh = .ok q → GoodTable c.bins.unit q := by
  unfold scanOneQ scanOne
  have e1 : c.si.signal.rows.map Ev.theta = (c.signal.rows.map Ev.theta).map (Units.si c.sigTheta) := by
    show (List.map _ c.signal.rows).map Ev.theta = _
    rw [List.map_map, List.map_map]; rfl
  have e2 : c.si.signal.rows.map Ev.gh = c.signal.rows.map Ev.gh := by
    show (List.map _ c.signal.rows).map Ev.gh = _
    rw [List.map_map]; rfl
  have e3 : c.si.background.rows.map Ev.gh = c.background.rows.map Ev.gh := by
    show (List.map _ c.background.rows).map Ev.gh = _
    rw [List.map_map]; rfl
  have e4 : (c.si.signal.rows.map fun e => FV.ge e.mult m) = c.signal.rows.map fun e => FV.ge e.mult m := by
    show (List.map _ c.signal.rows).map _ = _
    rw [List.map_map]; rfl
  have e5 : (c.si.background.rows.map fun e => FV.ge e.mult m) = c.background.rows.map fun e => FV.ge e.mult m := by
    show (List.map _ c.background.rows).map _ = _
    rw [List.map_map]; rfl
  rw [e1, e2, e3, e4, e5, ← evaluateByIndexQ_si hp.2.1 _ sIdx theta (by rw [h2]), ← evaluateByIndexPlain_si _ sIdx gh h3 FV.ge, ← evaluateByIndexPlain_si _ bIdx gh h3 FV.ge]
  cases evaluateByIndexQ c.sigTheta (c.signal.rows.map Ev.theta) sIdx theta FV.le with
  | error e => exact ⟨rfl, fun q h => by cases h⟩
  | ok mt =>
    cases evaluateByIndexPlain (c.signal.rows.map Ev.gh) sIdx gh FV.ge with
    | error e => exact ⟨rfl, fun q h => by cases h⟩
    | ok mg =>
      cases evaluateByIndexPlain (c.background.rows.map Ev.gh) bIdx gh FV.ge with
      | error e => exact ⟨rfl, fun q h => by cases h⟩
      | ok bg => exact sensitivityOfQ_si hp hd _ _ theta (by rw [h1]; exact hp.2.2.2.2.1) (by rw [h2]; exact hp.2.1) (by rw [h1]) (by rw [h2]; exact hd.2.2.1)

/-- The bounds of the theta cuts are angles. -/
def GridQ.Dims (g : GridQ) : Prop := g.thetaMin.unit.dim = radian.dim ∧ g.thetaMax.unit.dim = radian.dim

theorem filter_si (c : CtxQ) (m : FV ℝ) : c.si.signal.rows.filter (fun e => FV.ge e.mult m) =
    (c.signal.rows.filter (fun e => FV.ge e.mult m)).map fun e => { e with energy := Units.si c.sigEnergy e.energy, theta := Units.si c.sigTheta e.theta } := by
  show (List.map _ c.signal.rows).filter _ = _
  rw [List.filter_map]; rfl

theorem ghGridQ_si {c : CtxQ} (hp : c.Pos) (hd : c.Dims) (g : GridQ) (fill m : FV ℝ) :
    (ghGridQ c g fill m).map CutsQ.siRows = ghGrid c.si g.si fill m ∧ ∀ t, ghGridQ c g fill m = .ok t → t.bin = c.bins.unit ∧ t.cut = unitOne := by
  unfold ghGridQ ghGrid
  rw [filter_si, List.map_map]
  have h := plainCutsQ_si ((c.signal.rows.filter (fun e => FV.ge e.mult m)).map fun e => (e.gh, e.energy)) hp.1 c.bins hp.2.2.2.2.1 hd.1 fill (g.ghEff.map fun x => 100 * (1 - x))
  rw [List.map_map] at h
  exact h

theorem thetaGridQ_si {c : CtxQ} (hp : c.Pos) (hd : c.Dims) (hi : NoInf (c.signal.rows.map Ev.theta)) (g : GridQ) (hg : g.Dims) (m : FV ℝ) :
    (thetaGridQ c g m).map CutsQ.siRows = thetaGrid c.si g.si m ∧ ∀ t, thetaGridQ c g m = .ok t → t.bin = c.bins.unit ∧ t.cut = c.sigTheta := by
  unfold thetaGridQ thetaGrid
  rw [filter_si, List.map_map]
  have h := unitCutsQ_si hp.2.1 ((c.signal.rows.filter (fun e => FV.ge e.mult m)).map fun e => (e.theta, e.energy))
    (by
      intro v hv
      rw [List.map_map] at hv
      obtain ⟨e, he, rfl⟩ := List.mem_map.1 hv
      exact hi _ (List.mem_map_of_mem (List.mem_filter.1 he).1)) hp.1 c.bins hp.2.2.2.2.1 hd.1 g.thetaMax g.thetaMin g.thetaMax (hg.2.trans hd.2.2.1.symm) (hg.1.trans hd.2.2.1.symm)
    (hg.2.trans hd.2.2.1.symm) g.percentiles
  rw [List.map_map] at h
  exact h

/-- the results of one pass in SI units -/
noncomputable def siGrid (x : CutsQ (List (FV ℝ)) × CutsQ (List (FV ℝ)) × List ScanQ) : CutTable ℝ (List (FV ℝ)) × CutTable ℝ (List (FV ℝ)) × List Scan :=
  (x.1.siRows, x.2.1.siRows, x.2.2.map fun s => (s.1, s.2.si))

theorem scanMult_eq (c : CutOpt.Ctx) (g : Grid) (fill : FV ℝ) (sIdx bIdx : List (ℤ × Bool)) (mm : FV ℝ × ℕ) :
    scanMult c g fill sIdx bIdx mm = (ghGrid c g fill mm.1).bind fun ghCuts => (thetaGrid c g mm.1).bind fun thetaCuts =>
      (((List.range g.ghEff.length) ×ˢ (List.range g.thetaEff.length)).mapM fun gt =>
        (scanOne c sIdx bIdx mm.1 (cutColumn thetaCuts gt.2) (cutColumn ghCuts gt.1)).map fun s => (((mm.2, gt.2, gt.1), s) : Scan)).bind fun scans => .ok (ghCuts, thetaCuts, scans) := by
  unfold scanMult
  cases ghGrid c g fill mm.1 with
  | error e => rfl
  | ok ghCuts =>
    cases thetaGrid c g mm.1 with
    | error e => rfl
    | ok thetaCuts =>
      dsimp only [Except.bind]
      rw [mapM_congr' (f := fun gt : ℕ × ℕ => _) (g := fun gt : ℕ × ℕ =>
        (scanOne c sIdx bIdx mm.1 (cutColumn thetaCuts gt.2) (cutColumn ghCuts gt.1)).map fun s => (((mm.2, gt.2, gt.1), s) : Scan))
        (fun gt _ => by cases scanOne c sIdx bIdx mm.1 (cutColumn thetaCuts gt.2) (cutColumn ghCuts gt.1) <;> rfl)]
      generalize List.mapM (m := Except Err) _ _ = r
      cases r <;> rfl

theorem scanMultQ_eq (c : CtxQ) (g : GridQ) (fill : FV ℝ) (sIdx bIdx : List (ℤ × Bool)) (mm : FV ℝ × ℕ) :
    scanMultQ c g fill sIdx bIdx mm = (ghGridQ c g fill mm.1).bind fun ghCuts => (thetaGridQ c g mm.1).bind fun thetaCuts =>
      (((List.range g.ghEff.length) ×ˢ (List.range g.thetaEff.length)).mapM fun gt =>
        (scanOneQ c sIdx bIdx mm.1 (thetaCuts.column gt.2) (ghCuts.column gt.1)).map fun s => (((mm.2, gt.2, gt.1), s) : ScanQ)).bind fun scans => .ok (ghCuts, thetaCuts, scans) := rfl

theorem scanMultQ_si {c : CtxQ} (hp : c.Pos) (hd : c.Dims) (hi : NoInf (c.signal.rows.map Ev.theta)) (g : GridQ) (hg : g.Dims) (fill : FV ℝ) (sIdx bIdx : List (ℤ × Bool)) (mm : FV ℝ × ℕ) :
    (scanMultQ c g fill sIdx bIdx mm).map siGrid = scanMult c.si g.si fill sIdx bIdx mm ∧
    ∀ x, scanMultQ c g fill sIdx bIdx mm = .ok x → x.1.cut = unitOne ∧ x.2.1.cut = c.sigTheta ∧ ∀ s ∈ x.2.2, GoodTable c.bins.unit s.2 := by
  rw [scanMult_eq, ← (ghGridQ_si hp hd g fill mm.1).1, ← (thetaGridQ_si hp hd hi g hg mm.1).1]
  rw [scanMultQ_eq]
  cases hx : ghGridQ c g fill mm.1 with
  | error e => exact ⟨rfl, fun x h => by cases h⟩
  | ok gh =>
    cases hy : thetaGridQ c g mm.1 with
    | error e => exact ⟨rfl, fun x h => by cases h⟩
    | ok th =>
      obtain ⟨k1, k2⟩ := (ghGridQ_si hp hd g fill mm.1).2 _ hx
      obtain ⟨k3, k4⟩ := (thetaGridQ_si hp hd hi g hg mm.1).2 _ hy
      have key : ∀ gt : ℕ × ℕ, (scanOne c.si sIdx bIdx mm.1 (cutColumn th.siRows gt.2) (cutColumn gh.siRows gt.1)) = (scanOneQ c sIdx bIdx mm.1 (th.column gt.2) (gh.column gt.1)).map TableQ.si := by
        intro gt
        rw [← column_si, ← column_si]
        exact ((scanOneQ_si hp hd sIdx bIdx mm.1 (th.column gt.2) (gh.column gt.1) k3 k4 k2).1).symm
      have e : (fun gt : ℕ × ℕ => (scanOne c.si sIdx bIdx mm.1 (cutColumn th.siRows gt.2) (cutColumn gh.siRows gt.1)).map fun s => (((mm.2, gt.2, gt.1), s) : Scan)) =
          fun gt => ((scanOneQ c sIdx bIdx mm.1 (th.column gt.2) (gh.column gt.1)).map fun s => (((mm.2, gt.2, gt.1), s) : ScanQ)).map fun s => (s.1, s.2.si) := by
        funext gt
        rw [key]
        cases scanOneQ c sIdx bIdx mm.1 (th.column gt.2) (gh.column gt.1) <;> rfl
      show Except.map siGrid ((List.mapM (m := Except Err) (fun gt : ℕ × ℕ => (scanOneQ c sIdx bIdx mm.1 (th.column gt.2) (gh.column gt.1)).map fun s => (((mm.2, gt.2, gt.1), s) : ScanQ))
          ((List.range g.ghEff.length) ×ˢ (List.range g.thetaEff.length))).bind fun scans => .ok (gh, th, scans)) =
        ((List.mapM (m := Except Err) (fun gt : ℕ × ℕ => (scanOne c.si sIdx bIdx mm.1 (cutColumn th.siRows gt.2) (cutColumn gh.siRows gt.1)).map fun s => (((mm.2, gt.2, gt.1), s) : Scan))
          ((List.range g.ghEff.length) ×ˢ (List.range g.thetaEff.length))).bind fun scans => .ok (gh.siRows, th.siRows, scans)) ∧
        ∀ x, ((List.mapM (m := Except Err) (fun gt : ℕ × ℕ => (scanOneQ c sIdx bIdx mm.1 (th.column gt.2) (gh.column gt.1)).map fun s => (((mm.2, gt.2, gt.1), s) : ScanQ))
          ((List.range g.ghEff.length) ×ˢ (List.range g.thetaEff.length))).bind fun scans => .ok (gh, th, scans)) = .ok x → _
      rw [e, mapM_map']
      cases hz : List.mapM (m := Except Err) (fun gt : ℕ × ℕ => (scanOneQ c sIdx bIdx mm.1 (th.column gt.2) (gh.column gt.1)).map fun s => (((mm.2, gt.2, gt.1), s) : ScanQ))
          ((List.range g.ghEff.length) ×ˢ (List.range g.thetaEff.length)) with
      | error e => exact ⟨rfl, fun x h => by cases h⟩
      | ok scans =>
        refine ⟨rfl, fun x h => ?_⟩
        injection h with h
        subst h
        refine ⟨k2, k4, fun s hs => ?_⟩
        obtain ⟨gt, -, hgt⟩ := mapM_ok_mem hz s hs
        cases hq : scanOneQ c sIdx bIdx mm.1 (th.column gt.2) (gh.column gt.1) with
        | error e => rw [hq] at hgt; cases hgt
        | ok q =>
          rw [hq] at hgt
          injection hgt with hgt
          subst hgt
          exact (scanOneQ_si hp hd sIdx bIdx mm.1 (th.column gt.2) (gh.column gt.1) k3 k4 k2).2 q hq

theorem relAt_si (tables : List TableQ) (i : ℕ) : relAt (tables.map TableQ.si) i = relAtQ tables i := by
  unfold relAtQ relAt
  rw [mapM_comp', mapM_comp']
  apply mapM_congr'
  intro t _
  rw [show t.si.get "relative_sensitivity" = t.table.get "relative_sensitivity" from get_scale_other _ _ (by decide)]

theorem gridAt_si (l : List (CutsQ (List (FV ℝ)))) (un : PhysUnit ℝ) (hl : ∀ t ∈ l, t.cut = un) (mi b j : ℕ) :
    gridAt (l.map CutsQ.siRows) mi b j = (gridAt (l.map CutsQ.table) mi b j).map (Units.si un) := by
  unfold gridAt
  rw [List.getElem?_map, List.getElem?_map]
  cases h : l[mi]? with
  | none => rfl
  | some t =>
    have hu := hl t (List.mem_of_getElem? h)
    simp only [Option.map_some]
    show (match (t.table.cut.map (List.map (Units.si t.cut)))[b]? with | none => _ | some row => _) = _
    rw [List.getElem?_map, hu]
    cases t.table.cut[b]? with
    | none => rfl
    | some row =>
      simp only [Option.map_some, List.getElem?_map]
      cases row[j]? <;> rfl

theorem foldlM_map {α β γ : Type} (P : α → Prop) (S : α → β) (f : α → γ → Except Err α) (g : β → γ → Except Err β) (l : List γ)
    (h : ∀ b, P b → ∀ i, (f b i).map S = g (S b) i ∧ ∀ b', f b i = .ok b' → P b') (b : α) (hb : P b) :
    (l.foldlM f b).map S = l.foldlM g (S b) ∧ ∀ b', l.foldlM f b = .ok b' → P b' := by
  induction l generalizing b with
  | nil => exact ⟨rfl, fun b' e => by injection e with e; subst e; exact hb⟩
  | cons a l ih =>
    obtain ⟨h1, h2⟩ := h b hb a
    rw [List.foldlM_cons, List.foldlM_cons, ← h1]
    cases hx : f b a with
    | error e => exact ⟨rfl, fun b' e => by cases e⟩
    | ok v => exact ih v (h2 v hx)

theorem bestStep_eq (g : Grid) (ghGrids thetaGrids : List (CutTable ℝ (List (FV ℝ)))) (scans : List Scan) (b : Best) (i : ℕ) :
    bestStep g ghGrids thetaGrids scans b i = (relAt (scans.map Prod.snd) i).bind fun rels => (itemAt scans (bestIndex rels)).bind fun best => (b.sens.setRow i best.2).bind fun sens =>
      (gridAt ghGrids best.1.1 i best.1.2.2).bind fun ghV => (itemAt g.mults best.1.1).bind fun mV => (gridAt thetaGrids best.1.1 i best.1.2.1).bind fun thV =>
      (itemAt g.ghEff best.1.2.2).bind fun ghE => (itemAt g.thetaEff best.1.2.1).bind fun thE =>
        .ok ⟨sens, b.mult.set i mV, b.theta.set i thV, b.thetaEff.set i (.fin thE), b.gh.set i ghV, b.ghEff.set i (.fin ghE)⟩ := rfl

theorem bestStepQ_eq (g : GridQ) (ghGrids thetaGrids : List (CutsQ (List (FV ℝ)))) (scans : List ScanQ) (b : BestQ) (i : ℕ) :
    bestStepQ g ghGrids thetaGrids scans b i = (relAtQ (scans.map Prod.snd) i).bind fun rels => (itemAt scans (bestIndex rels)).bind fun best => (b.sens.setRow i best.2).bind fun sens =>
      (gridAt (ghGrids.map CutsQ.table) best.1.1 i best.1.2.2).bind fun ghV => (itemAt g.mults best.1.1).bind fun mV => (gridAt (thetaGrids.map CutsQ.table) best.1.1 i best.1.2.1).bind fun thV =>
      (itemAt g.ghEff best.1.2.2).bind fun ghE => (itemAt g.thetaEff best.1.2.1).bind fun thE =>
        .ok ⟨sens, b.thetaUnit, b.mult.set i mV, b.theta.set i thV, b.thetaEff.set i (.fin thE), b.gh.set i ghV, b.ghEff.set i (.fin ghE)⟩ := rfl

theorem bestStepQ_si {un tu : PhysUnit ℝ} (hu : 0 < un.scale) (g : GridQ) (ghGrids thetaGrids : List (CutsQ (List (FV ℝ)))) (scans : List ScanQ) (h1 : ∀ t ∈ ghGrids, t.cut = unitOne)
    (h2 : ∀ t ∈ thetaGrids, t.cut = tu) (h3 : ∀ s ∈ scans, GoodTable un s.2) (b : BestQ) (hb : GoodTable un b.sens ∧ b.thetaUnit = tu) (i : ℕ) :
    (bestStepQ g ghGrids thetaGrids scans b i).map BestQ.si = bestStep g.si (ghGrids.map CutsQ.siRows) (thetaGrids.map CutsQ.siRows) (scans.map fun s => (s.1, s.2.si)) b.si i ∧
    ∀ b', bestStepQ g ghGrids thetaGrids scans b i = .ok b' → GoodTable un b'.sens ∧ b'.thetaUnit = tu := by
  rw [bestStep_eq, bestStepQ_eq]
  have e1 : (scans.map fun s => ((s.1, s.2.si) : Scan)).map Prod.snd = (scans.map Prod.snd).map TableQ.si := by rw [List.map_map, List.map_map]; rfl
  rw [e1, relAt_si]
  cases relAtQ (scans.map Prod.snd) i with
  | error e => exact ⟨rfl, fun b' h => by cases h⟩
  | ok rels =>
    simp only [Except.bind]
    rw [itemAt_map]
    cases hx : itemAt scans (bestIndex rels) with
    | error e => exact ⟨rfl, fun b' h => by cases h⟩
    | ok best =>
      simp only [Except.map]
      obtain ⟨k1, k2⟩ := setRow_si hu hb.1 (h3 _ (itemAt_mem hx)) i
      rw [show b.si.sens.setRow i best.2.si = _ from k1.symm]
      cases hy : b.sens.setRow i best.2 with
      | error e => exact ⟨rfl, fun b' h => by cases h⟩
      | ok sens =>
        simp only [Except.map]
        rw [gridAt_si ghGrids unitOne h1, gridAt_si thetaGrids tu h2, show g.si.mults = g.mults from rfl, show g.si.ghEff = g.ghEff from rfl, show g.si.thetaEff = g.thetaEff from rfl]
        cases gridAt (ghGrids.map CutsQ.table) best.1.1 i best.1.2.2 with
        | error e => exact ⟨rfl, fun b' h => by cases h⟩
        | ok ghV =>
          cases itemAt g.mults best.1.1 with
          | error e => exact ⟨rfl, fun b' h => by cases h⟩
          | ok mV =>
            cases gridAt (thetaGrids.map CutsQ.table) best.1.1 i best.1.2.1 with
            | error e => exact ⟨rfl, fun b' h => by cases h⟩
            | ok thV =>
              cases itemAt g.ghEff best.1.2.2 with
              | error e => exact ⟨rfl, fun b' h => by cases h⟩
              | ok ghE =>
                cases itemAt g.thetaEff best.1.2.1 with
                | error e => exact ⟨rfl, fun b' h => by cases h⟩
                | ok thE =>
                  constructor
                  · simp only [Except.map, BestQ.si]
                    rw [List.map_set, hb.2, si_one]
                  · intro b' h
                    injection h with h
                    subst h
                    exact ⟨k2 _ hy, hb.2⟩

theorem optimizeCuts_eq (c : CutOpt.Ctx) (g : Grid) :
    optimizeCuts c g = (npMax (c.signal.rows.map Ev.gh)).bind fun fill => (calculateBinIndices false false (c.signal.rows.map Ev.energy) c.bins).bind fun sIdx =>
      (calculateBinIndices false false (c.background.rows.map Ev.energy) c.bins).bind fun bIdx => (g.mults.zipIdx.mapM (scanMult c g fill sIdx bIdx)).bind fun grids =>
      (itemAt (grids.flatMap fun x => x.2.2) 0).bind fun first =>
        (List.range (c.bins.length - 1)).foldlM (bestStep g (grids.map fun x => x.1) (grids.map fun x => x.2.1) (grids.flatMap fun x => x.2.2))
          ⟨first.2, List.replicate (c.bins.length - 1) FV.nan, List.replicate (c.bins.length - 1) FV.nan, List.replicate (c.bins.length - 1) FV.nan, List.replicate (c.bins.length - 1) FV.nan,
            List.replicate (c.bins.length - 1) FV.nan⟩ := rfl

theorem optimizeCutsQ_eq (c : CtxQ) (g : GridQ) :
    optimizeCutsQ c g = (npMax (c.signal.rows.map Ev.gh)).bind fun fill => (calculateBinIndicesQ ⟨c.sigEnergy, c.signal.rows.map Ev.energy⟩ c.bins).bind fun sIdx =>
      (calculateBinIndicesQ ⟨c.bgEnergy, c.background.rows.map Ev.energy⟩ c.bins).bind fun bIdx => (g.mults.zipIdx.mapM (scanMultQ c g fill sIdx bIdx)).bind fun grids =>
      (itemAt (grids.flatMap fun x => x.2.2) 0).bind fun first =>
        (List.range (c.bins.val.length - 1)).foldlM (bestStepQ g (grids.map fun x => x.1) (grids.map fun x => x.2.1) (grids.flatMap fun x => x.2.2))
          ⟨first.2, (grids.getLast?.map fun x => x.2.1.cut).getD unitOne, List.replicate (c.bins.val.length - 1) FV.nan, List.replicate (c.bins.val.length - 1) FV.nan,
            List.replicate (c.bins.val.length - 1) FV.nan, List.replicate (c.bins.val.length - 1) FV.nan, List.replicate (c.bins.val.length - 1) FV.nan⟩ := rfl

/-- **C156**: `optimize_cuts` gives the same result, as physical quantities, as for arguments converted to SI units: the table of the best sensitivities and all cuts; the bins of the
sensitivity have the unit of the bins given, the theta cuts that of the theta column. -/
theorem C156_optimize_cuts_si (c : CtxQ) (hp : c.Pos) (hd : c.Dims) (hi : NoInf (c.signal.rows.map Ev.theta)) (g : GridQ) (hg : g.Dims) :
    (optimizeCutsQ c g).map BestQ.si = optimizeCuts c.si g.si ∧
    ∀ b, optimizeCutsQ c g = .ok b → b.sens.unit = c.bins.unit ∧ b.thetaUnit = c.sigTheta := by
  rw [optimizeCuts_eq, optimizeCutsQ_eq]
  have e1 : c.si.signal.rows.map Ev.gh = c.signal.rows.map Ev.gh := by
    show (List.map _ c.signal.rows).map Ev.gh = _
    rw [List.map_map]; rfl
  have e2 : c.si.signal.rows.map Ev.energy = (c.signal.rows.map Ev.energy).map (Units.si c.sigEnergy) := by
    show (List.map _ c.signal.rows).map Ev.energy = _
    rw [List.map_map, List.map_map]; rfl
  have e3 : c.si.background.rows.map Ev.energy = (c.background.rows.map Ev.energy).map (Units.si c.bgEnergy) := by
    show (List.map _ c.background.rows).map Ev.energy = _
    rw [List.map_map, List.map_map]; rfl
  have e4 : c.si.bins.length = c.bins.val.length := List.length_map _
  rw [e1, e2, e3, e4, show c.si.bins = c.bins.val.map (Units.si c.bins.unit) from rfl, ← binIdx_si c.sigEnergy hp.1 c.bins hp.2.2.2.2.1 hd.1, ← binIdx_si c.bgEnergy hp.2.2.1 c.bins hp.2.2.2.2.1 hd.2.1]
  cases npMax (c.signal.rows.map Ev.gh) with
  | error e => exact ⟨rfl, fun b h => by cases h⟩
  | ok fill =>
    cases calculateBinIndicesQ ⟨c.sigEnergy, c.signal.rows.map Ev.energy⟩ c.bins with
    | error e => exact ⟨rfl, fun b h => by cases h⟩
    | ok sIdx =>
      cases calculateBinIndicesQ ⟨c.bgEnergy, c.background.rows.map Ev.energy⟩ c.bins with
      | error e => exact ⟨rfl, fun b h => by cases h⟩
      | ok bIdx =>
        simp only [Except.bind]
        have hs : ∀ mm, (scanMultQ c g fill sIdx bIdx mm).map siGrid = scanMult c.si g.si fill sIdx bIdx mm := fun mm => (scanMultQ_si hp hd hi g hg fill sIdx bIdx mm).1
        rw [show g.si.mults = g.mults from rfl, show scanMult c.si g.si fill sIdx bIdx = fun mm => (scanMultQ c g fill sIdx bIdx mm).map siGrid from funext fun mm => (hs mm).symm, mapM_map']
        cases hx : g.mults.zipIdx.mapM (scanMultQ c g fill sIdx bIdx) with
        | error e => exact ⟨rfl, fun b h => by cases h⟩
        | ok grids =>
          have hgr : ∀ x ∈ grids, x.1.cut = unitOne ∧ x.2.1.cut = c.sigTheta ∧ ∀ s ∈ x.2.2, GoodTable c.bins.unit s.2 := by
            intro x hm
            obtain ⟨mm, -, hmm⟩ := mapM_ok_mem hx x hm
            exact (scanMultQ_si hp hd hi g hg fill sIdx bIdx mm).2 x hmm
          simp only [Except.map]
          have f1 : ((grids.map siGrid).flatMap fun x => x.2.2) = (grids.flatMap fun x => x.2.2).map fun s => ((s.1, s.2.si) : Scan) := by
            rw [List.flatMap_map, List.map_flatMap]; rfl
          have f2 : ((grids.map siGrid).map fun x => x.1) = (grids.map fun x => x.1).map CutsQ.siRows := by
            rw [List.map_map, List.map_map]; rfl
          have f3 : ((grids.map siGrid).map fun x => x.2.1) = (grids.map fun x => x.2.1).map CutsQ.siRows := by
            rw [List.map_map, List.map_map]; rfl
          rw [f1, f2, f3, itemAt_map]
          cases hf : itemAt (grids.flatMap fun x => x.2.2) 0 with
          | error e => exact ⟨rfl, fun b h => by cases h⟩
          | ok first =>
            have hfm := itemAt_mem hf
            obtain ⟨x0, hx0, hf0⟩ := List.mem_flatMap.1 hfm
            have hne : grids ≠ [] := List.ne_nil_of_mem hx0
            have hun : (grids.getLast?.map fun x => x.2.1.cut).getD unitOne = c.sigTheta := by
              rw [List.getLast?_eq_some_getLast hne]
              exact (hgr _ (List.getLast_mem hne)).2.1
            rw [hun]
            simp only [Except.map]
            obtain ⟨r1, r2⟩ := foldlM_map (fun b : BestQ => GoodTable c.bins.unit b.sens ∧ b.thetaUnit = c.sigTheta) BestQ.si
              (bestStepQ g (grids.map fun x => x.1) (grids.map fun x => x.2.1) (grids.flatMap fun x => x.2.2))
              (bestStep g.si ((grids.map fun x => x.1).map CutsQ.siRows) ((grids.map fun x => x.2.1).map CutsQ.siRows) ((grids.flatMap fun x => x.2.2).map fun s => ((s.1, s.2.si) : Scan)))
              (List.range (c.bins.val.length - 1))
              (fun b hb i => bestStepQ_si hp.2.2.2.2.1 g (grids.map fun x => x.1) (grids.map fun x => x.2.1) (grids.flatMap fun x => x.2.2)
                (fun t ht => by obtain ⟨x, hx, rfl⟩ := List.mem_map.1 ht; exact (hgr x hx).1)
                (fun t ht => by obtain ⟨x, hx, rfl⟩ := List.mem_map.1 ht; exact (hgr x hx).2.1)
                (fun s hs => by obtain ⟨x, hx, hs⟩ := List.mem_flatMap.1 hs; exact (hgr x hx).2.2 s hs) b hb i)
              ⟨first.2, c.sigTheta, List.replicate (c.bins.val.length - 1) FV.nan, List.replicate (c.bins.val.length - 1) FV.nan,
                List.replicate (c.bins.val.length - 1) FV.nan, List.replicate (c.bins.val.length - 1) FV.nan, List.replicate (c.bins.val.length - 1) FV.nan⟩
              ⟨(hgr x0 hx0).2.2 first hf0, rfl⟩
            refine ⟨r1.trans ?_, fun b hb => ⟨(r2 b hb).1.1, (r2 b hb).2⟩⟩
            congr 1
            show Best.mk _ _ (List.map _ (List.replicate _ FV.nan)) _ _ _ = _
            rw [List.map_replicate]
            rfl

/-! ## optimize_gh_cut -/

theorem scanGh_eq (c : CutOpt.Ctx) (thetaCuts : CutTable ℝ (FV ℝ)) (op : FV ℝ → FV ℝ → Bool) (thetaMask : List Bool) (ghCut : CutTable ℝ (FV ℝ)) :
    scanGh c thetaCuts op thetaMask ghCut = (evaluateBinnedCut true (c.signal.rows.map Ev.gh) (c.signal.rows.map Ev.energy) ghCut op).bind fun maskGh =>
      (evaluateBinnedCut true (c.background.rows.map Ev.gh) (c.background.rows.map Ev.energy) ghCut op).bind fun bgGh => sensitivityOf c (andMask maskGh thetaMask) bgGh thetaCuts := by
  unfold scanGh
  generalize evaluateBinnedCut (K := ℝ) true _ (c.signal.rows.map Ev.energy) ghCut op = r
  generalize evaluateBinnedCut (K := ℝ) true _ (c.background.rows.map Ev.energy) ghCut op = r'
  cases r with
  | error e => rfl
  | ok m => cases r' <;> rfl

/-- The dimensions of the theta cuts given. -/
def CutsQ.Dims {C : Type} (t : CutsQ C) (bins : Q (List (FV ℝ))) : Prop := t.bin.dim = bins.unit.dim ∧ t.cut.dim = radian.dim

theorem rows_si (c : CtxQ) : c.si.signal.rows.map Ev.gh = c.signal.rows.map Ev.gh ∧ c.si.background.rows.map Ev.gh = c.background.rows.map Ev.gh ∧
    c.si.signal.rows.map Ev.energy = (c.signal.rows.map Ev.energy).map (Units.si c.sigEnergy) ∧ c.si.background.rows.map Ev.energy = (c.background.rows.map Ev.energy).map (Units.si c.bgEnergy) ∧
    c.si.signal.rows.map Ev.theta = (c.signal.rows.map Ev.theta).map (Units.si c.sigTheta) := by
  refine ⟨?_, ?_, ?_, ?_, ?_⟩
  · show (List.map _ c.signal.rows).map Ev.gh = _
    rw [List.map_map]; rfl
  · show (List.map _ c.background.rows).map Ev.gh = _
    rw [List.map_map]; rfl
  · show (List.map _ c.signal.rows).map Ev.energy = _
    rw [List.map_map, List.map_map]; rfl
  · show (List.map _ c.background.rows).map Ev.energy = _
    rw [List.map_map, List.map_map]; rfl
  · show (List.map _ c.signal.rows).map Ev.theta = _
    rw [List.map_map, List.map_map]; rfl

theorem scanGhQ_si {c : CtxQ} (hp : c.Pos) (hd : c.Dims) (thetaCuts : CutsQ (FV ℝ)) (h1 : 0 < thetaCuts.bin.scale) (h2 : 0 < thetaCuts.cut.scale) (ht : thetaCuts.Dims c.bins)
    (op : FV ℝ → FV ℝ → Bool) (thetaMask : List Bool) (ghCut : CutsQ (FV ℝ)) (g1 : ghCut.bin = c.bins.unit) (g2 : ghCut.cut = unitOne) :
    (scanGhQ c thetaCuts op thetaMask ghCut).map TableQ.si = scanGh c.si thetaCuts.si op thetaMask ghCut.si ∧ ∀ q, scanGhQ c thetaCuts op thetaMask ghCut = .ok q → GoodTable c.bins.unit q := by
  rw [scanGh_eq]
  unfold scanGhQ
  obtain ⟨e1, e2, e3, e4, -⟩ := rows_si c
  rw [e1, e2, e3, e4, ← evaluateCutPlain_si hp.1 _ _ ghCut (by rw [g1]; exact hp.2.2.2.2.1) g2 (by rw [g1]; exact hd.1) op,
    ← evaluateCutPlain_si hp.2.2.1 _ _ ghCut (by rw [g1]; exact hp.2.2.2.2.1) g2 (by rw [g1]; exact hd.2.1) op]
  cases evaluateCutPlain (c.signal.rows.map Ev.gh) c.sigEnergy (c.signal.rows.map Ev.energy) ghCut op with
  | error e => exact ⟨rfl, fun q h => by cases h⟩
  | ok mg =>
    cases evaluateCutPlain (c.background.rows.map Ev.gh) c.bgEnergy (c.background.rows.map Ev.energy) ghCut op with
    | error e => exact ⟨rfl, fun q h => by cases h⟩
    | ok bg => exact sensitivityOfQ_si hp hd _ _ thetaCuts h1 h2 ht.1 ht.2

theorem bestGhStepQ_eq (ghEff : List ℝ) (ghCuts : CutsQ (List (FV ℝ))) (tables : List TableQ) (b : BestGhQ) (i : ℕ) :
    bestGhStepQ ghEff ghCuts tables b i = (relAtQ tables i).bind fun rels => (itemAt tables (bestIndex rels)).bind fun t => (b.sens.setRow i t).bind fun sens =>
      (gridAt ([ghCuts].map CutsQ.table) 0 i (bestIndex rels)).bind fun v => (itemAt ghEff (bestIndex rels)).bind fun e => .ok ⟨sens, b.gh.set i v, b.ghEff.set i (.fin e)⟩ := rfl

theorem bestGhStep_eq (ghEff : List ℝ) (ghCuts : CutTable ℝ (List (FV ℝ))) (tables : List (Table (FV ℝ))) (b : BestGh) (i : ℕ) :
    bestGhStep ghEff ghCuts tables b i = (relAt tables i).bind fun rels => (itemAt tables (bestIndex rels)).bind fun t => (b.sens.setRow i t).bind fun sens =>
      (gridAt [ghCuts] 0 i (bestIndex rels)).bind fun v => (itemAt ghEff (bestIndex rels)).bind fun e => .ok ⟨sens, b.gh.set i v, b.ghEff.set i (.fin e)⟩ := rfl

theorem bestGhStepQ_si {un : PhysUnit ℝ} (hu : 0 < un.scale) (ghEff : List ℝ) (ghCuts : CutsQ (List (FV ℝ))) (hg : ghCuts.cut = unitOne) (tables : List TableQ) (ht : ∀ t ∈ tables, GoodTable un t)
    (b : BestGhQ) (hb : GoodTable un b.sens) (i : ℕ) :
    (bestGhStepQ ghEff ghCuts tables b i).map BestGhQ.si = bestGhStep ghEff ghCuts.siRows (tables.map TableQ.si) b.si i ∧
    ∀ b', bestGhStepQ ghEff ghCuts tables b i = .ok b' → GoodTable un b'.sens := by
  rw [bestGhStep_eq, bestGhStepQ_eq, relAt_si]
  cases relAtQ tables i with
  | error e => exact ⟨rfl, fun b' h => by cases h⟩
  | ok rels =>
    simp only [Except.bind]
    rw [itemAt_map]
    cases hx : itemAt tables (bestIndex rels) with
    | error e => exact ⟨rfl, fun b' h => by cases h⟩
    | ok t =>
      simp only [Except.map]
      obtain ⟨k1, k2⟩ := setRow_si hu hb (ht _ (itemAt_mem hx)) i
      rw [show b.si.sens.setRow i t.si = _ from k1.symm]
      cases hy : b.sens.setRow i t with
      | error e => exact ⟨rfl, fun b' h => by cases h⟩
      | ok sens =>
        simp only [Except.map]
        rw [show gridAt [ghCuts.siRows] 0 i (bestIndex rels) = _ from gridAt_si [ghCuts] unitOne (fun x hx => by rw [List.mem_singleton.1 hx]; exact hg) 0 i (bestIndex rels)]
        cases gridAt ([ghCuts].map CutsQ.table) 0 i (bestIndex rels) with
        | error e => exact ⟨rfl, fun b' h => by cases h⟩
        | ok v =>
          cases itemAt ghEff (bestIndex rels) with
          | error e => exact ⟨rfl, fun b' h => by cases h⟩
          | ok ef =>
            constructor
            · simp only [Except.map, BestGhQ.si]
              rw [si_one]
            · intro b' h
              injection h with h
              subst h
              exact k2 _ hy

theorem ghSetupQ_si (c : CtxQ) (ghEff : List ℝ) (op : FV ℝ → FV ℝ → Bool) : ghScanSetup c.si ghEff op = ghSetupQ c ghEff op := by
  unfold ghScanSetup ghSetupQ
  rw [(rows_si c).1]
  split
  · cases npMin (c.signal.rows.map Ev.gh) <;> rfl
  · cases npMax (c.signal.rows.map Ev.gh) <;> rfl

theorem optimizeGhCut_eq (c : CutOpt.Ctx) (ghEff : List ℝ) (thetaCuts : CutTable ℝ (FV ℝ)) (op : FV ℝ → FV ℝ → Bool) :
    optimizeGhCut c ghEff thetaCuts op = (evaluateBinnedCut true (c.signal.rows.map Ev.theta) (c.signal.rows.map Ev.energy) thetaCuts FV.le).bind fun thetaMask =>
      (ghScanSetup c ghEff op).bind fun setup => (percentileCuts (c.signal.rows.map fun e => (e.gh, e.energy)) c.bins setup.2 setup.1 none none minEventsDefault).bind fun ghCuts =>
      ((List.range ghEff.length).mapM fun j => scanGh c thetaCuts op thetaMask (cutColumn ghCuts j)).bind fun tables => (itemAt tables 0).bind fun first =>
        (List.range (c.bins.length - 1)).foldlM (bestGhStep ghEff ghCuts tables) ⟨first, List.replicate (c.bins.length - 1) FV.nan, List.replicate (c.bins.length - 1) FV.nan⟩ := rfl

theorem optimizeGhCutQ_eq (c : CtxQ) (ghEff : List ℝ) (thetaCuts : CutsQ (FV ℝ)) (op : FV ℝ → FV ℝ → Bool) :
    optimizeGhCutQ c ghEff thetaCuts op = (evaluateCutQ c.sigTheta (c.signal.rows.map Ev.theta) c.sigEnergy (c.signal.rows.map Ev.energy) thetaCuts FV.le).bind fun thetaMask =>
      (ghSetupQ c ghEff op).bind fun setup => (plainCutsQ (c.signal.rows.map fun e => (e.gh, e.energy)) c.sigEnergy c.bins setup.2 setup.1).bind fun ghCuts =>
      ((List.range ghEff.length).mapM fun j => scanGhQ c thetaCuts op thetaMask (ghCuts.column j)).bind fun tables => (itemAt tables 0).bind fun first =>
        (List.range (c.bins.val.length - 1)).foldlM (bestGhStepQ ghEff ghCuts tables)
          ⟨first, List.replicate (c.bins.val.length - 1) FV.nan, List.replicate (c.bins.val.length - 1) FV.nan⟩ := rfl

/-- **C156**: `optimize_gh_cut` gives the same result, as physical quantities, as for arguments converted to SI units. -/
theorem C156_optimize_gh_cut_si (c : CtxQ) (hp : c.Pos) (hd : c.Dims) (ghEff : List ℝ) (thetaCuts : CutsQ (FV ℝ)) (h1 : 0 < thetaCuts.bin.scale) (h2 : 0 < thetaCuts.cut.scale)
    (ht : thetaCuts.Dims c.bins) (op : FV ℝ → FV ℝ → Bool) :
    (optimizeGhCutQ c ghEff thetaCuts op).map BestGhQ.si = optimizeGhCut c.si ghEff thetaCuts.si op ∧ ∀ b, optimizeGhCutQ c ghEff thetaCuts op = .ok b → b.sens.unit = c.bins.unit := by
  rw [optimizeGhCut_eq, optimizeGhCutQ_eq]
  obtain ⟨e1, e2, e3, e4, e5⟩ := rows_si c
  have e6 : c.si.bins.length = c.bins.val.length := List.length_map _
  rw [e5, e3, e6, ← evaluateCutQ_si hp.2.1 hp.1 _ _ thetaCuts h1 (ht.2.trans hd.2.2.1.symm) (ht.1.trans hd.1), ghSetupQ_si]
  cases evaluateCutQ c.sigTheta (c.signal.rows.map Ev.theta) c.sigEnergy (c.signal.rows.map Ev.energy) thetaCuts FV.le with
  | error e => exact ⟨rfl, fun b h => by cases h⟩
  | ok mask =>
    simp only [Except.bind]
    cases ghSetupQ c ghEff op with
    | error e => exact ⟨rfl, fun b h => by cases h⟩
    | ok setup =>
      simp only []
      obtain ⟨a1, a2⟩ := plainCutsQ_si (c.signal.rows.map fun e => (e.gh, e.energy)) hp.1 c.bins hp.2.2.2.2.1 hd.1 setup.2 setup.1
      have e7 : (c.si.signal.rows.map fun e => (e.gh, e.energy)) = (c.signal.rows.map fun e => (e.gh, e.energy)).map fun e => (e.1, Units.si c.sigEnergy e.2) := by
        show (List.map _ c.signal.rows).map _ = _
        rw [List.map_map, List.map_map]; rfl
      rw [e7, show c.si.bins = c.bins.val.map (Units.si c.bins.unit) from rfl, ← a1]
      cases hx : plainCutsQ (c.signal.rows.map fun e => (e.gh, e.energy)) c.sigEnergy c.bins setup.2 setup.1 with
      | error e => exact ⟨rfl, fun b h => by cases h⟩
      | ok ghCuts =>
        obtain ⟨k1, k2⟩ := a2 _ hx
        simp only [Except.map]
        have key : ∀ j, (scanGhQ c thetaCuts op mask (ghCuts.column j)).map TableQ.si = scanGh c.si thetaCuts.si op mask (cutColumn ghCuts.siRows j) := by
          intro j
          rw [← column_si]
          exact (scanGhQ_si hp hd thetaCuts h1 h2 ht op mask (ghCuts.column j) k1 k2).1
        rw [show (fun j => scanGh c.si thetaCuts.si op mask (cutColumn ghCuts.siRows j)) = fun j => (scanGhQ c thetaCuts op mask (ghCuts.column j)).map TableQ.si from funext fun j => (key j).symm,
          mapM_map']
        cases hy : (List.range ghEff.length).mapM fun j => scanGhQ c thetaCuts op mask (ghCuts.column j) with
        | error e => exact ⟨rfl, fun b h => by cases h⟩
        | ok tables =>
          have hgood : ∀ t ∈ tables, GoodTable c.bins.unit t := by
            intro t hm
            obtain ⟨j, -, hj⟩ := mapM_ok_mem hy t hm
            exact (scanGhQ_si hp hd thetaCuts h1 h2 ht op mask (ghCuts.column j) k1 k2).2 t hj
          simp only [Except.map]
          rw [itemAt_map]
          cases hf : itemAt tables 0 with
          | error e => exact ⟨rfl, fun b h => by cases h⟩
          | ok first =>
            simp only [Except.map]
            obtain ⟨r1, r2⟩ := foldlM_map (fun b : BestGhQ => GoodTable c.bins.unit b.sens) BestGhQ.si (bestGhStepQ ghEff ghCuts tables) (bestGhStep ghEff ghCuts.siRows (tables.map TableQ.si))
              (List.range (c.bins.val.length - 1)) (fun b hb i => bestGhStepQ_si hp.2.2.2.2.1 ghEff ghCuts k2 tables hgood b hb i)
              ⟨first, List.replicate (c.bins.val.length - 1) FV.nan, List.replicate (c.bins.val.length - 1) FV.nan⟩ (hgood first (itemAt_mem hf))
            exact ⟨r1, fun b hb => (r2 b hb).1⟩

/-! ## The same quantities in other units -/

/-- **C156** (same quantities): arguments that are the same quantities (equal after conversion to SI) give results that are the same quantities. -/
theorem C156_optimize_cuts (c c' : CtxQ) (hp : c.Pos) (hp' : c'.Pos) (hd : c.Dims) (hd' : c'.Dims) (hi : NoInf (c.signal.rows.map Ev.theta)) (hi' : NoInf (c'.signal.rows.map Ev.theta)) (g g' : GridQ)
    (hg : g.Dims) (hg' : g'.Dims) (hc : c.si = c'.si) (hgg : g.si = g'.si) : (optimizeCutsQ c g).map BestQ.si = (optimizeCutsQ c' g').map BestQ.si := by
  rw [(C156_optimize_cuts_si c hp hd hi g hg).1, (C156_optimize_cuts_si c' hp' hd' hi' g' hg').1, hc, hgg]

/-- **C156** (same quantities) for `optimize_gh_cut`. -/
theorem C156_optimize_gh_cut (c c' : CtxQ) (hp : c.Pos) (hp' : c'.Pos) (hd : c.Dims) (hd' : c'.Dims) (ghEff : List ℝ) (t t' : CutsQ (FV ℝ)) (h1 : 0 < t.bin.scale) (h2 : 0 < t.cut.scale)
    (h1' : 0 < t'.bin.scale) (h2' : 0 < t'.cut.scale) (ht : t.Dims c.bins) (ht' : t'.Dims c'.bins) (op : FV ℝ → FV ℝ → Bool) (hc : c.si = c'.si) (htt : t.si = t'.si) :
    (optimizeGhCutQ c ghEff t op).map BestGhQ.si = (optimizeGhCutQ c' ghEff t' op).map BestGhQ.si := by
  rw [(C156_optimize_gh_cut_si c hp hd ghEff t h1 h2 ht op).1, (C156_optimize_gh_cut_si c' hp' hd' ghEff t' h1' h2' ht' op).1, hc, htt]

/-! ## Other dimensions -/

theorem binIdxQ_ok {data bins : Q (List (FV ℝ))} {idx} (h : calculateBinIndicesQ data bins = .ok idx) : bins.unit.dim = data.unit.dim := by
  unfold calculateBinIndicesQ at h
  rw [checkDim_bind] at h
  by_contra hn
  rw [if_neg hn] at h
  cases h

theorem bind_ok_inv {α β : Type} {x : Except Err α} {f : α → Except Err β} {b : β} (h : x.bind f = .ok b) : ∃ a, x = .ok a ∧ f a = .ok b := by
  cases x with
  | error e => cases h
  | ok a => exact ⟨a, rfl, h⟩

theorem sensitivityOfQ_ok {c : CtxQ} (hp : c.Pos) (hinc : Increasing c.bins.val) {s b : List Bool} {theta : CutsQ (FV ℝ)} (h1 : 0 < theta.bin.scale) (h2 : 0 < theta.cut.scale) {q : TableQ}
    (h : sensitivityOfQ c s b theta = .ok q) : c.bins.unit.dim = c.sigEnergy.dim ∧ c.bins.unit.dim = c.bgEnergy.dim ∧ theta.bin.dim = c.bins.unit.dim ∧ theta.cut.dim = radian.dim ∧
      c.bgOffset.dim = radian.dim ∧ c.offMin.unit.dim = radian.dim ∧ c.offMax.unit.dim = radian.dim := by
  obtain ⟨sh, hsh, h⟩ := bind_ok_inv h
  obtain ⟨bh, hbh, h⟩ := bind_ok_inv h
  have d1 : c.bins.unit.dim = c.sigEnergy.dim := by
    unfold histTableQ at hsh
    rw [checkDim_bind] at hsh
    by_contra hn
    rw [if_neg hn] at hsh
    cases hsh
  have d2 : EventDims ⟨c.bgEnergy, c.bgOffset, c.background.hasWeight, c.background.hasParticle, (select c.background.rows b).map Ev.toBg⟩ c.bins c.offMin c.offMax ∧
      CutDims c.bins ⟨theta.bin, theta.cut, theta.table.center.zip theta.table.cut⟩ c.offMin c.offMax := by
    by_contra hn
    rw [C153_background_dims _ hp.2.2.2.1 hp.2.2.1 c.bins hp.2.2.2.2.1 _ h1 h2 c.alpha c.offMin c.offMax hp.2.2.2.2.2.1 hp.2.2.2.2.2.2 hinc hn] at hbh
    cases hbh
  obtain ⟨⟨a1, a2, a3⟩, b1, b2, b3, b4⟩ := d2
  exact ⟨d1, a3, b1, b2, a1.symm.trans b4, b4, b3⟩

/-- **C156** (other dimensions): for increasing bins `optimize_cuts` returns a result only if energies and bins have one dimension and all angles are angles. -/
theorem C156_optimize_cuts_dims (c : CtxQ) (hp : c.Pos) (hinc : Increasing c.bins.val) (g : GridQ) (b : BestQ) (h : optimizeCutsQ c g = .ok b) : c.Dims ∧ g.Dims := by
  rw [optimizeCutsQ_eq] at h
  obtain ⟨fill, -, h⟩ := bind_ok_inv h
  obtain ⟨sIdx, hs, h⟩ := bind_ok_inv h
  obtain ⟨bIdx, hb, h⟩ := bind_ok_inv h
  obtain ⟨grids, hg, h⟩ := bind_ok_inv h
  obtain ⟨first, hf, h⟩ := bind_ok_inv h
  obtain ⟨x, hx, hfx⟩ := List.mem_flatMap.1 (itemAt_mem hf)
  obtain ⟨mm, -, hmm⟩ := mapM_ok_mem hg x hx
  rw [scanMultQ_eq] at hmm
  obtain ⟨gh, hgh, hmm⟩ := bind_ok_inv hmm
  obtain ⟨th, hth, hmm⟩ := bind_ok_inv hmm
  obtain ⟨scans, hsc, hmm⟩ := bind_ok_inv hmm
  injection hmm with hmm
  subst hmm
  obtain ⟨gt, -, hgt⟩ := mapM_ok_mem hsc first hfx
  have hth' : th.bin = c.bins.unit ∧ th.cut = c.sigTheta ∧ g.thetaMin.unit.dim = c.sigTheta.dim ∧ g.thetaMax.unit.dim = c.sigTheta.dim := by
    unfold thetaGridQ unitCutsQ at hth
    rw [checkDim_bind] at hth
    by_cases d1 : g.thetaMax.unit.dim = c.sigTheta.dim
    · rw [if_pos d1, checkDim_bind] at hth
      by_cases d2 : g.thetaMin.unit.dim = c.sigTheta.dim
      · rw [if_pos d2, checkDim_bind, if_pos d1] at hth
        split at hth
        · cases hth
        · injection hth with hth
          subst hth
          exact ⟨rfl, rfl, d2, d1⟩
      · rw [if_neg d2] at hth; cases hth
    · rw [if_neg d1] at hth; cases hth
  obtain ⟨t1, t2, t3, t4⟩ := hth'
  cases hq : scanOneQ c sIdx bIdx mm.1 (th.column gt.2) (gh.column gt.1) with
  | error e => rw [hq] at hgt; cases hgt
  | ok q =>
    obtain ⟨_, -, hq⟩ := bind_ok_inv hq
    obtain ⟨_, -, hq⟩ := bind_ok_inv hq
    obtain ⟨_, -, hq⟩ := bind_ok_inv hq
    obtain ⟨d1, d2, d3, d4, d5, d6, d7⟩ := sensitivityOfQ_ok hp hinc (by show 0 < th.bin.scale; rw [t1]; exact hp.2.2.2.2.1) (by show 0 < th.cut.scale; rw [t2]; exact hp.2.1) hq
    have d4' : c.sigTheta.dim = radian.dim := by rw [← t2]; exact d4
    exact ⟨⟨d1, d2, d4', d5, d6, d7⟩, t3.trans d4', t4.trans d4'⟩

/-- **C156** (other dimensions) for `optimize_gh_cut`: the theta cuts, too, must be angles in bins of the dimension of the energies. -/
theorem C156_optimize_gh_cut_dims (c : CtxQ) (hp : c.Pos) (hinc : Increasing c.bins.val) (ghEff : List ℝ) (thetaCuts : CutsQ (FV ℝ)) (h1 : 0 < thetaCuts.bin.scale) (h2 : 0 < thetaCuts.cut.scale)
    (op : FV ℝ → FV ℝ → Bool) (b : BestGhQ) (h : optimizeGhCutQ c ghEff thetaCuts op = .ok b) : c.Dims ∧ thetaCuts.Dims c.bins := by
  rw [optimizeGhCutQ_eq] at h
  obtain ⟨mask, hm, h⟩ := bind_ok_inv h
  obtain ⟨setup, -, h⟩ := bind_ok_inv h
  obtain ⟨ghCuts, hg, h⟩ := bind_ok_inv h
  obtain ⟨tables, ht, h⟩ := bind_ok_inv h
  obtain ⟨first, hf, h⟩ := bind_ok_inv h
  obtain ⟨j, -, hj⟩ := mapM_ok_mem ht first (itemAt_mem hf)
  obtain ⟨_, -, hj⟩ := bind_ok_inv hj
  obtain ⟨_, -, hj⟩ := bind_ok_inv hj
  obtain ⟨d1, d2, d3, d4, d5, d6, d7⟩ := sensitivityOfQ_ok hp hinc h1 h2 hj
  obtain ⟨edges, -, hm⟩ := bind_ok_inv hm
  obtain ⟨idx, -, hm⟩ := bind_ok_inv hm
  have d8 : thetaCuts.cut.dim = c.sigTheta.dim := by
    unfold evaluateByIndexQ at hm
    split at hm
    · cases hm
    · by_contra hn
      rw [if_neg hn] at hm
      cases hm
  exact ⟨⟨d1, d2, d8.symm.trans d4, d5, d6, d7⟩, d3, d4⟩

/-! ## The hypotheses can be met -/

/-- an energy unit of 1000 units of SI -/
noncomputable def exKilo : PhysUnit ℝ := ⟨dimEnergy, 1000⟩
/-- an angle of 1/64 radian -/
noncomputable def exSmall : PhysUnit ℝ := ⟨dimAngle, 1 / 64⟩
/-- the energy unit of SI -/
noncomputable def exJoule : PhysUnit ℝ := ⟨dimEnergy, 1⟩

/-- The example of C79, with the signal energies in units of 1000, its angles and the inner offset in units of 1/64 radian. -/
noncomputable def exCtxQ : CtxQ where
  brentq := CutOpt.exCtx.brentq
  sig := CutOpt.exCtx.sig
  th := CutOpt.exCtx.th
  signal := ⟨true, false, [⟨.fin (1 / 1000), .fin 0, .fin 0, .fin 1, .fin 4, 2, ""⟩, ⟨.fin (3 / 1000), .fin 0, .fin 0, .fin (1 / 2), .fin 2, 3, ""⟩]⟩
  sigEnergy := exKilo
  sigTheta := exSmall
  background := CutOpt.exCtx.background
  bgEnergy := exJoule
  bgOffset := radian
  bins := ⟨exKilo, [.fin 0, .fin (2 / 1000), .pinf]⟩
  alpha := CutOpt.exCtx.alpha
  offMin := ⟨exSmall, .fin 0⟩
  offMax := ⟨exSmall, .fin 64⟩

/-- the grid of C79, the largest theta cut in units of 1/64 radian -/
noncomputable def exGridQ : GridQ := ⟨[.fin 2, .fin 4], [1 / 2, 1], [3 / 10, 8 / 10], ⟨radian, .fin 0⟩, ⟨exSmall, .fin 64⟩, false⟩

theorem exCtxQ_si : exCtxQ.si = CutOpt.exCtx := by
  unfold CtxQ.si siSignal siBackground exCtxQ CutOpt.exCtx
  congr 1
  · simp [exKilo, exSmall, Units.si]; norm_num
  · simp [exJoule, radian, Units.si]
  · have : (.fin 1000 : FV ℝ) * .pinf = .pinf := by
      show FV.infSign 1000 = _
      exact FV.infSign_pos (by norm_num)
    simp [exKilo, Units.si, this]; norm_num
  · simp [exSmall, Units.si]
  · simp [exSmall, Units.si]

theorem exGridQ_si : exGridQ.si = exGrid := by
  unfold GridQ.si exGridQ exGrid
  congr 1
  · simp [radian, Units.si]
  · simp [exSmall, Units.si]

theorem exCtxQ_pos : exCtxQ.Pos := by
  refine ⟨?_, ?_, ?_, ?_, ?_, ?_, ?_⟩ <;> norm_num [exCtxQ, exKilo, exSmall, exJoule, radian]

theorem exCtxQ_dims : exCtxQ.Dims ∧ exGridQ.Dims := ⟨⟨rfl, rfl, rfl, rfl, rfl, rfl⟩, rfl, rfl⟩

theorem exCtxQ_noInf : NoInf (exCtxQ.signal.rows.map Ev.theta) := by
  intro v hv
  simp only [exCtxQ, List.map_cons, List.map_nil, List.mem_cons, List.not_mem_nil, or_false] at hv
  rcases hv with rfl | rfl <;> simp

/-- The optimization of the example succeeds, so that the hypotheses of the theorems about units and about dimensions are met together with `optimizeCutsQ c g = .ok b`. -/
example : exCtxQ.Pos ∧ exCtxQ.Dims ∧ exGridQ.Dims ∧ NoInf (exCtxQ.signal.rows.map Ev.theta) ∧ ∃ b, optimizeCutsQ exCtxQ exGridQ = .ok b := by
  refine ⟨exCtxQ_pos, exCtxQ_dims.1, exCtxQ_dims.2, exCtxQ_noInf, ?_⟩
  obtain ⟨out, h⟩ := C79_optimize_cuts_succeeds exCtx_wellFormed exGrid (by simp [exGrid]) (by simp [exGrid]) (by simp [exGrid])
    (by intro x hx; simp only [exGrid, List.mem_cons, List.not_mem_nil, or_false] at hx; rcases hx with rfl | rfl <;> norm_num)
    (by intro x hx; simp only [exGrid, List.mem_cons, List.not_mem_nil, or_false] at hx; rcases hx with rfl | rfl <;> norm_num) exCtx_sameTypes
    exCtx_insideMult
  have key := (C156_optimize_cuts_si exCtxQ exCtxQ_pos exCtxQ_dims.1 exCtxQ_noInf exGridQ exCtxQ_dims.2).1
  rw [exCtxQ_si, exGridQ_si] at key
  rw [h] at key
  cases hx : optimizeCutsQ exCtxQ exGridQ with
  | error e => rw [hx] at key; cases key
  | ok b => exact ⟨b, rfl⟩

/-- theta cuts in units of 1/64 radian in bins in units of 1000 -/
noncomputable def exThetaQ : CutsQ (FV ℝ) :=
  ⟨exKilo, exSmall, asTable [.fin 0, .fin (2 / 1000), .pinf] [.fin 64, .fin 32]⟩

example : exThetaQ.Dims exCtxQ.bins ∧ 0 < exThetaQ.bin.scale ∧ 0 < exThetaQ.cut.scale := by
  refine ⟨⟨rfl, rfl⟩, ?_, ?_⟩ <;> norm_num [exThetaQ, exKilo, exSmall]

end Pyirf.Units
