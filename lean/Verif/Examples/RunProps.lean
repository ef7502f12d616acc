import Verif.Examples.IrfProps
import Verif.CutOpt.EfficiencyProps
import Verif.Bench.BiasProps
import Verif.Bench.AngProps
import Verif.Pipeline.BinTableProps

/-! # Property C135: the EventDisplay script runs through -/
set_option linter.unusedSectionVars false
set_option linter.unusedSimpArgs false

namespace Pyirf.Examples
open Pyirf Pyirf.Np Pyirf.Binning Pyirf.Cuts Pyirf.Sensitivity Pyirf.CutOpt Pyirf.Simulations Pyirf.Spectral Pyirf.Coords

/-! ## Specification -/

/-- The reconstructed direction is less than 1 degree from the pointing direction. -/
def InRing (e : Raw) : Prop := ∃ t, IsAngle t e.recoAz e.recoAlt e.pointingAz e.pointingAlt ∧ t < 1 * deg

/-- If the list has an event in the ring, it has one with a finite non-negative energy and a gh score not below that of any gamma. -/
def Survives (gammas events : List Raw) : Prop :=
  (∃ e ∈ events, InRing e) → ∃ e ∈ events, InRing e ∧ (∃ x, 0 ≤ x ∧ e.recoEnergy = .fin x) ∧ ∀ g ∈ gammas, FV.le g.gh e.gh = true

/-- Input with which the script can be expected to run: proper simulations, gammas with finite scores, one of the gammas of highest score with a finite non-negative energy,
a root finder that fails only with ValueError or RuntimeError, and background of both kinds that survives all gh cuts. -/
structure Runnable (inp : Input) : Prop where
  simulations : ProperSimulations inp
  best : ∃ e ∈ inp.gammas, (∃ x, 0 ≤ x ∧ e.recoEnergy = .fin x) ∧ ∀ g ∈ inp.gammas, FV.le g.gh e.gh = true
  scores : ∀ e ∈ inp.gammas, ∃ x, e.gh = .fin x
  brentq : ∀ f a b e, inp.brentq f a b = .error e → e = .runtimeError ∨ e = .valueError
  protons : Survives inp.gammas inp.protons
  electrons : Survives inp.gammas inp.electrons

/-! ## Lemmas -/

theorem percentile_le {xs : List ℝ} {p v M : ℝ} (h : IsPercentile xs p v) (hM : ∀ x ∈ xs, x ≤ M) : v ≤ M := by
  obtain ⟨s, hs, -, i, f, hf0, hf1, -, hi, rfl⟩ := h
  have h1 : s[i] ≤ M := hM _ (hs.mem_iff.mp (List.getElem_mem hi))
  have h2 : s.getD (i + 1) s[i] ≤ M := by
    rw [List.getD_eq_getElem?_getD]
    rcases Nat.lt_or_ge (i + 1) s.length with h | h
    · rw [List.getElem?_eq_getElem h]; exact hM _ (hs.mem_iff.mp (List.getElem_mem h))
    · rw [List.getElem?_eq_none h]; exact h1
  nlinarith

/-- the scanned gh cuts are not above the largest score of the signal -/
theorem ghCuts_le {c : CutOpt.Ctx} {E : List (FV ℝ)} (hbins : c.bins = E) (hE : Increasing1 E) (h2 : 2 ≤ E.length) {ghEff : List ℝ}
    (heff : ∀ x ∈ ghEff, 0 ≤ x ∧ x ≤ 1) (hfin : ∀ e ∈ c.signal.rows, ∃ x, e.gh = .fin x) {j : ℕ} (hj : j < ghEff.length) {cuts : List (FV ℝ)}
    (h : GhCuts c ghEff FV.ge j cuts) {M : FV ℝ} (hM : ∀ e ∈ c.signal.rows, FV.le e.gh M = true) :
    cuts.length = E.length - 1 ∧ ∀ v ∈ cuts, FV.le v M = true := by
  obtain ⟨setup, grid, h1, hg, rfl⟩ := h
  have hop : ¬ FV.ge (.fin (-1)) (.fin (1:ℝ)) = true := by norm_num [FV.ge, FV.le_fin]
  unfold ghScanSetup at h1
  rw [if_neg hop] at h1
  cases hf : npMax (c.signal.rows.map Ev.gh) with
  | error e => rw [hf] at h1; cases h1
  | ok f =>
    rw [hf] at h1
    obtain rfl := Except.ok.inj h1
    have hmax := npMax_isMax hf
    have hps : ∀ p ∈ ghEff.map (fun x => 100 * (1 - x)), 0 ≤ p ∧ p ≤ 100 := by
      intro p hp
      obtain ⟨x, hx, rfl⟩ := List.mem_map.mp hp
      have := heff x hx
      constructor <;> linarith
    refine ⟨?_, ?_⟩
    · have hg' := hg
      unfold percentileCuts at hg'
      obtain ⟨-, -, -, q4⟩ := cutTable_shape hg'
      simp only [cutColumn, List.length_map]
      rw [← hbins]
      exact q4
    · intro v hv
      obtain ⟨i, hi, rfl⟩ := List.getElem_of_mem hv
      have hcut := isCut_column (lo := none) (hi := none) (by rw [hbins]; exact hE.increasing) (by rw [hbins]; omega) hps hg (i := i) (j := j)
        (p := 100 * (1 - ghEff[j])) (by simp [hj]) (List.getElem?_eq_getElem hi)
      set evs := c.signal.rows.map fun e => (e.gh, e.energy) with hevs
      have hsub : ∀ e ∈ eventsIn c.bins i evs, ∃ r ∈ c.signal.rows, e = (r.gh, r.energy) := by
        intro e he
        obtain ⟨r, hr, hre⟩ := List.mem_map.mp (List.mem_of_mem_filter he)
        exact ⟨r, hr, hre.symm⟩
      rcases Nat.lt_or_ge (eventsIn c.bins i evs).length 10 with hlt | hge
      · rw [hcut.few hlt]
        obtain ⟨r, hr, hrm⟩ := List.mem_map.mp hmax.1
        rw [← hrm]
        exact hM r hr
      · have hfn : FiniteOrNan (eventsIn c.bins i evs) := by
          intro e he
          obtain ⟨r, hr, rfl⟩ := hsub e he
          obtain ⟨x, hx⟩ := hfin r hr
          simp [hx]
        have hne : goodValues (eventsIn c.bins i evs) ≠ [] := by
          obtain ⟨e, he⟩ := List.exists_mem_of_length_pos (show 0 < (eventsIn c.bins i evs).length by omega)
          obtain ⟨r, hr, rfl⟩ := hsub e he
          obtain ⟨x, hx⟩ := hfin r hr
          apply List.ne_nil_of_mem (a := x)
          exact List.mem_filterMap.mpr ⟨_, he, by simp [hx]⟩
        obtain ⟨q, hq, hvq⟩ := hcut.some hge hfn hne
        rw [hvq]
        show FV.le (.fin q) M = true
        have hgood : ∀ x ∈ goodValues (eventsIn c.bins i evs), FV.le (.fin x) M = true := by
          intro x hx
          obtain ⟨e, he, hex⟩ := List.mem_filterMap.mp hx
          obtain ⟨r, hr, rfl⟩ := hsub e he
          obtain ⟨y, hy⟩ := hfin r hr
          simp only [hy, Option.some.injEq] at hex
          rw [← hex, ← hy]
          exact hM r hr
        obtain ⟨x0, hx0⟩ := List.exists_mem_of_ne_nil _ hne
        have hM0 := hgood x0 hx0
        cases M with
        | fin m => simpa [FV.le] using percentile_le hq (fun x hx => by simpa [FV.le] using hgood x hx)
        | pinf => simp [FV.le]
        | ninf => simp [FV.le] at hM0
        | nan => simp [FV.le] at hM0

/-- every non-negative number is in an energy bin -/
theorem OverflowBins.inBin {B : List (FV ℝ)} (h : OverflowBins B) {x : ℝ} (hx : 0 ≤ x) : ∃ i, InBin B i (.fin x) := by
  have h2 := h.two
  rcases bin_cases h.increasing1.increasing (by omega) (.fin x) with hc | hc | hc
  · obtain ⟨es, -, -, -, rfl⟩ := h
    simp [FV.lt] at hc
    linarith
  · exact hc
  · exfalso
    rcases hc with hc | hc
    · cases hc
    · obtain ⟨es, -, -, -, rfl⟩ := h
      simp [FV.le] at hc

theorem forall₂_mem_right {α β : Type} {R : α → β → Prop} {l : List α} {r : List β} (h : List.Forall₂ R l r) {b : β} (hb : b ∈ r) : ∃ a ∈ l, R a b := by
  induction h with
  | nil => cases hb
  | cons h1 _ ih =>
    rcases List.mem_cons.mp hb with rfl | hb
    · exact ⟨_, by simp, h1⟩
    · obtain ⟨a, ha, hab⟩ := ih hb; exact ⟨a, by simp [ha], hab⟩

theorem forall₂_mem_left {α β : Type} {R : α → β → Prop} {l : List α} {r : List β} (h : List.Forall₂ R l r) {a : α} (ha : a ∈ l) : ∃ b ∈ r, R a b := by
  induction h with
  | nil => cases ha
  | cons h1 _ ih =>
    rcases List.mem_cons.mp ha with rfl | ha
    · exact ⟨_, by simp, h1⟩
    · obtain ⟨b, hb, hab⟩ := ih ha; exact ⟨b, by simp [hb], hab⟩

/-- with surviving background all scanned cuts leave the same particle types -/
theorem sameTypes {inp : Input} (hr : Runnable inp) {s : Settings} (hp : Proper s) (hrad : s.maxBgRadius = 1 * deg) {gammas protons electrons : List Row}
    (hg : List.Forall₂ (IsPrepared inp.gammaInfo crabFlux "gamma") inp.gammas gammas)
    (hpr : List.Forall₂ (IsPrepared inp.protonInfo protonFlux "proton") inp.protons protons)
    (hel : List.Forall₂ (IsPrepared inp.electronInfo electronFlux "electron") inp.electrons electrons) :
    SameTypesGh (optimizeArgs s inp.brentq gammas (protons ++ electrons)) s.ghEff FV.ge := by
  have hS := hp.sensitivityBins
  have hsig : ∀ e ∈ (optimizeArgs s inp.brentq gammas (protons ++ electrons)).signal.rows, ∃ g ∈ inp.gammas, e.gh = g.gh := by
    intro e he
    obtain ⟨r, hrm, rfl⟩ := List.mem_map.mp he
    obtain ⟨g, hgm, hgr⟩ := forall₂_mem_right hg hrm
    exact ⟨g, hgm, hgr.gh⟩
  have hring : ∀ {info : Info} {flux : ℝ → ℝ} {p : String} {e : Raw} {r : Row}, IsPrepared info flux p e r →
      ((FV.ge r.recoOffset (.fin 0) = true ∧ FV.lt r.recoOffset (.fin s.maxBgRadius) = true) ↔ InRing e) := by
    intro info flux p e r h
    obtain ⟨t, -, ht, hang⟩ := h.theta
    rw [ht, hrad]
    constructor
    · rintro ⟨-, h2⟩
      exact ⟨t, hang, by simpa [FV.lt] using h2⟩
    · rintro ⟨t', hang', hlt⟩
      have : t = t' := isAngle_unique hang hang' rfl
      subst this
      exact ⟨by simpa [FV.ge, FV.le] using hang.1, by simpa [FV.lt] using hlt⟩
  -- one kind of background
  have kind : ∀ {info : Info} {flux : ℝ → ℝ} {p : String} {raws : List Raw} {rows : List Row}, List.Forall₂ (IsPrepared info flux p) raws rows →
      Survives inp.gammas raws → ∀ (j : ℕ) (cuts : List (FV ℝ)), j < s.ghEff.length →
      GhCuts (optimizeArgs s inp.brentq gammas (protons ++ electrons)) s.ghEff FV.ge j cuts →
      (∃ r ∈ rows, FV.ge r.recoOffset (.fin 0) = true ∧ FV.lt r.recoOffset (.fin s.maxBgRadius) = true) →
      ∃ r ∈ rows, PassesGh s.sensitivityBins FV.ge cuts r.toEv ∧ FV.ge r.recoOffset (.fin 0) = true ∧
        FV.lt r.recoOffset (.fin s.maxBgRadius) = true ∧ r.particle = p := by
    intro info flux p raws rows hf hsv j cuts hj hcuts hex
    obtain ⟨r0, hr0, h0⟩ := hex
    obtain ⟨e0, he0, hp0⟩ := forall₂_mem_right hf hr0
    obtain ⟨e, he, hering, ⟨x, hx0, hx⟩, hsc⟩ := hsv ⟨e0, he0, (hring hp0).mp h0⟩
    obtain ⟨r, hrm, hre⟩ := forall₂_mem_left hf he
    obtain ⟨i, hi⟩ := hS.inBin hx0
    obtain ⟨hlen, hle⟩ := ghCuts_le (c := optimizeArgs s inp.brentq gammas (protons ++ electrons)) (E := s.sensitivityBins) rfl hS.increasing1 hS.two hp.eff.2
      (by intro e he
          obtain ⟨g, hgm, hgh⟩ := hsig e he
          rw [hgh]
          exact hr.scores g hgm) hj hcuts (M := e.gh)
      (by intro e' he'
          obtain ⟨g, hgm, hgh⟩ := hsig e' he'
          rw [hgh]
          exact hsc g hgm)
    obtain ⟨k1, k2⟩ := (hring hre).mpr hering
    have hil : i < cuts.length := by
      obtain ⟨h1, -⟩ := hi
      omega
    refine ⟨r, hrm, ⟨i, cuts[i], ?_, List.getElem?_eq_getElem hil, ?_⟩, k1, k2, hre.particle⟩
    · show InBin s.sensitivityBins i r.recoEnergy
      rw [hre.energy.2, hx]
      exact hi
    · show FV.ge r.gh _ = true
      rw [hre.gh]
      exact hle _ (List.getElem_mem hil)
  have key : ∀ (j : ℕ) (cuts : List (FV ℝ)), j < s.ghEff.length →
      GhCuts (optimizeArgs s inp.brentq gammas (protons ++ electrons)) s.ghEff FV.ge j cuts →
      leftTypes (optimizeArgs s inp.brentq gammas (protons ++ electrons)) (PassesGh s.sensitivityBins FV.ge cuts) =
        leftTypes (optimizeArgs s inp.brentq gammas (protons ++ electrons)) (fun _ => True) := by
    intro j cuts hj hcuts
    ext q
    constructor
    · rintro ⟨e, he, -, h2⟩
      exact ⟨e, he, trivial, h2⟩
    · rintro ⟨e, he, -, h3, h4, h5⟩
      obtain ⟨r, hrm, rfl⟩ := List.mem_map.mp he
      have hpart : ∃ (p : String), r.particle = p ∧ ∃ rows : List Row, (∀ r ∈ rows, r ∈ protons ++ electrons) ∧ ∃ r' ∈ rows, PassesGh s.sensitivityBins FV.ge cuts r'.toEv ∧
          FV.ge r'.recoOffset (.fin 0) = true ∧ FV.lt r'.recoOffset (.fin s.maxBgRadius) = true ∧ r'.particle = p := by
        rcases List.mem_append.mp hrm with hm | hm
        · obtain ⟨e1, -, hp1⟩ := forall₂_mem_right hpr hm
          exact ⟨"proton", hp1.particle, protons, fun r hr => by simp [hr], kind hpr hr.protons j cuts hj hcuts ⟨r, hm, h3, h4⟩⟩
        · obtain ⟨e1, -, hp1⟩ := forall₂_mem_right hel hm
          exact ⟨"electron", hp1.particle, electrons, fun r hr => by simp [hr], kind hel hr.electrons j cuts hj hcuts ⟨r, hm, h3, h4⟩⟩
      obtain ⟨p, hp1, rows, hrows, r', hr', k1, k2, k3, k4⟩ := hpart
      refine ⟨r'.toEv, List.mem_map.mpr ⟨r', hrows r' hr', rfl⟩, k1, k2, k3, ?_⟩
      show r'.particle = q
      rw [k4, ← hp1]
      exact h5
  intro _ j j' cuts cuts' hj hj' h h'
  exact (key j cuts hj h).trans (key j' cuts' hj' h').symm

theorem effectiveArea_total (events : EventTable ℝ) (info : Info) {n : ℕ} (bins : Fin (n + 1) → FV ℝ) (hb : Increasing (List.ofFn bins))
    (hw : events.hasParticle = true → "weighted" ∉ particles events.rows) : ∃ A, Irf.effectiveAreaPerEnergy events info bins = .ok A := by
  obtain ⟨tab, ht, -⟩ := createHistogramTable_cols hb events hw
  unfold Irf.effectiveAreaPerEnergy
  simp only [ht]
  exact ⟨_, rfl⟩

theorem background_total {n m : ℕ} (events : List Irf.BackgroundEvent) {e : Fin (n + 1) → FV ℝ} (he : IncEdges e) {off : Fin (m + 1) → ℝ}
    (ho : IncEdges (Irf.finEdges off)) (t : ℝ) : ∃ b, Irf.background2d events e off t = .ok b := by
  unfold Irf.background2d
  simp only [histogram2d_ok he ho]
  exact ⟨_, rfl⟩

theorem deg_le_pi : deg ≤ Real.pi := by
  have hpi : deg * 180 = Real.pi := by unfold deg; ring
  have := deg_pos
  linarith

theorem edges_increasing {B : List (FV ℝ)} (h : OverflowBins B) : Increasing (List.ofFn (fEdges B)) := by
  have h2 := h.two
  have : List.ofFn (fEdges B) = B := ofFn_edges _ _ (by omega)
  rw [this]
  exact h.increasing1.increasing

theorem select_mem {α : Type} {l : List α} {mask : List Bool} {a : α} (h : a ∈ select l mask) : a ∈ l := by
  unfold select at h
  obtain ⟨⟨x, b⟩, hx, rfl⟩ := List.mem_map.mp h
  exact (List.of_mem_zip (List.mem_of_mem_filter hx)).1

/-- the energies in the bins are the non-negative numbers -/
theorem OverflowBins.range {B : List (FV ℝ)} (h : OverflowBins B) {i : ℕ} {x : FV ℝ} (hi : InBin B i x) : ∃ y, 0 ≤ y ∧ x = .fin y := by
  obtain ⟨k1, k2, k3⟩ := hi
  have h0 : FV.le (.fin 0) B[i] = true := by
    have hpw := h.increasing1.2
    obtain ⟨es, -, -, -, rfl⟩ := h
    rcases i with _ | i
    · simp [FV.le]
    · exact FV.le_of_lt' ((List.pairwise_cons.mp hpw).1 _ (List.getElem_mem _))
  have h1 := FV.le_trans' h0 k2
  cases x with
  | fin y => exact ⟨y, by simpa [FV.le] using h1, rfl⟩
  | pinf => cases hb : B[i + 1] <;> rw [hb] at k3 <;> simp [FV.lt] at k3
  | ninf => simp [FV.le] at h1
  | nan => simp [FV.le] at h1

/-- finite values of a list -/
theorem fin_list {l : List Row} {f : Row → FV ℝ} (h : ∀ g ∈ l, ∃ x, f g = .fin x) : ∃ xs : List ℝ, l.map f = xs.map FV.fin ∧
    List.Forall₂ (fun g x => f g = .fin x) l xs := by
  induction l with
  | nil => exact ⟨[], rfl, .nil⟩
  | cons g l ih =>
    obtain ⟨x, hx⟩ := h g (by simp)
    obtain ⟨xs, h1, h2⟩ := ih fun g' hg' => h g' (by simp [hg'])
    exact ⟨x :: xs, by simp [hx, h1], .cons hx h2⟩

/-- an energy in a sensitivity bin is in a bin of reconstructed energy -/
theorem OverflowBins.inOther {B C : List (FV ℝ)} (hB : OverflowBins B) (hC : OverflowBins C) {x : FV ℝ} (h : ∃ i, InBin B i x) : ∃ i, InBin C i x := by
  obtain ⟨i, hi⟩ := h
  have hr := hB.range hi
  obtain ⟨y, hy, rfl⟩ := hr
  exact hC.inBin hy

/-- events selected by a cut are in its bins -/
theorem selected_inside {bins : List (FV ℝ)} (h : Increasing bins) (hl : 2 ≤ bins.length) (t : CutTable ℝ (FV ℝ)) (hlow : t.low = bins.dropLast) (hhigh : t.high = bins.tail)
    (hc : t.cut.length = bins.length - 1) (op : FV ℝ → FV ℝ → Bool) (rows : List Row) (v : Row → FV ℝ) {mask : List Bool}
    (hm : evaluateBinnedCut true (rows.map v) (rows.map Row.recoEnergy) t op = .ok mask) : ∀ g ∈ select rows mask, ∃ i, InBin bins i g.recoEnergy := by
  rw [eval_mask h hl t hlow hhigh hc op, List.zip_map', List.map_map] at hm
  rw [← Except.ok.inj hm, CutOpt.select_map]
  intro g hg
  have := (List.mem_filter.mp hg).2
  obtain ⟨i, -, hi, -⟩ := passes_iff.mp this
  exact ⟨i, hi⟩

theorem select_and {α : Type} (l : List α) (a b : List Bool) {x : α} (h : x ∈ select l (andMask a b)) : x ∈ select l b := by
  induction l generalizing a b with
  | nil => simp [select] at h
  | cons y l ih =>
    match a, b with
    | [], _ => simp [select, andMask] at h
    | _ :: _, [] => simp [select, andMask] at h
    | p :: a, q :: b =>
      have hi := ih a b
      simp only [select, andMask, List.zipWith_cons_cons, List.zip_cons_cons, List.filter_cons] at h hi ⊢
      cases p <;> cases q <;> simp only [Bool.and_true, Bool.and_false, Bool.true_and, Bool.false_and, Bool.false_eq_true, if_false, if_true, List.map_cons, List.mem_cons] at h ⊢
      · exact hi h
      · exact Or.inr (hi h)
      · exact hi h
      · exact h.elim Or.inl fun h => Or.inr (hi h)

theorem maskIrf_total {s : Settings} (hp : Proper s) (big : ℝ) (info : Info) (m : String × List Row) (hnw : ∀ g ∈ m.2, g.particle ≠ "weighted") :
    ∃ r, maskIrf s big info m = .ok r := by
  have h2 := hp.trueBins.two
  have h4 := hp.migrationBins.1
  obtain ⟨A, hA⟩ := effectiveArea_total ⟨true, true, m.2.map Row.toAreaEvent⟩ info (fEdges s.trueEnergyBins) (edges_increasing hp.trueBins) (by
    intro _ hmem
    obtain ⟨e, he, hpart⟩ := List.mem_map.mp (by simpa [particles] using hmem : "weighted" ∈ (m.2.map Row.toAreaEvent).map Event.particle)
    obtain ⟨g, hg, rfl⟩ := List.mem_map.mp he
    exact hnw g hg hpart)
  obtain ⟨d, hd, -⟩ := Irf.C39_energy_dispersion big (m.2.map Row.toReco) (fEdges s.trueEnergyBins)
    (incEdges_of _ hp.trueBins.increasing1 h2) _ (incEdges_fin _ hp.fovBins) (rEdges s.migrationBins) (strictMono_of _ hp.migrationBins) (by omega)
  unfold maskIrf
  rw [hA]
  simp only [bind, Except.bind]
  rw [hd]
  exact ⟨_, rfl⟩

/-- the part after the optimization succeeds -/
theorem analyse_total {inp : Input} {s : Settings} (hp : Proper s) (h0 : ∀ x ∈ s.sourceOffsetBins, 0 ≤ x ∧ x ≤ Real.pi) (spectrum : PowerLaw)
    (gammas background : List Row) (hnw : ∀ g ∈ gammas, g.particle ≠ "weighted") (hnb : ∀ g ∈ background, g.particle ≠ "weighted") {sel : Selection}
    (hsel : selection s inp.brentq gammas background = .ok sel) : ∃ out, analyse s inp spectrum gammas background = .ok out := by
  obtain ⟨h1, h2, h3, h4, h5, h6⟩ := selection_inv hsel
  have hS := hp.sensitivityBins
  have hR := hp.recoBins
  have hR2 := hR.two
  have hT2 := hp.trueBins.two
  have hs2 := hp.sourceBins.1
  have hf2 := hp.fovBins.1
  obtain ⟨low, high, center, -, -, hce, -⟩ := (Pipeline.C131_optimised (optimizeArgs s inp.brentq gammas background) s.sensitivityBins rfl).2 _ _ _ _ h2
  obtain ⟨_, _, -, -, -, hglen, hrow⟩ := optimizeGhCut_spec (c := optimizeArgs s inp.brentq gammas background) (E := s.sensitivityBins) rfl
    hS.increasing1 (by
      intro _ e he
      obtain ⟨r, hr, rfl⟩ := List.mem_map.mp he
      exact hnw r hr) (by
      intro _ e he
      obtain ⟨r, hr, rfl⟩ := List.mem_map.mp he
      exact hnb r hr) _ _ _ _ h2
  have inside := selected_inside hS.increasing1.increasing hS.two (ghTable s.sensitivityBins sel.best) rfl rfl hglen FV.ge gammas Row.gh h3
  have bench : ∀ mask : List Bool, (∀ g ∈ select gammas mask, g ∈ select gammas sel.gammaGh) →
      Bench.EmptyOrInside .reco s.recoEnergyBins ((select gammas mask).map Row.toBench) := by
    intro mask hmask
    rcases hc : select gammas mask with _ | ⟨g, l⟩
    · exact Or.inl rfl
    · right
      have hg : g ∈ select gammas mask := by rw [hc]; simp
      exact ⟨g.toBench, by simp, hS.inOther hR (inside g (hmask g hg))⟩
  have insideGh := bench sel.gammaGh fun g hg => hg
  have insideSel := bench sel.gammaSelected fun g hg => by rw [h6] at hg; exact select_and _ _ _ hg
  have hrel : ∃ rel, sel.best.sens.get "relative_sensitivity" = .ok rel := by
    have := hS.two
    obtain ⟨_, -, -, _, _, _, _, -, -, ⟨rel, hrel, -⟩, -⟩ := hrow 0 (by omega)
    exact ⟨rel, hrel⟩
  obtain ⟨rel, hrel⟩ := hrel
  have hsens : ∃ S, addFluxSensitivity spectrum sel.best.sens = .ok S := by
    unfold addFluxSensitivity
    rw [hrel, hce]
    exact ⟨_, rfl⟩
  obtain ⟨S, hsens⟩ := hsens
  have hirf : ∃ r, (masks gammas sel).mapM (maskIrf s inp.big inp.gammaInfo) = .ok r := by
    obtain ⟨r, hr, -⟩ := mapM_forall₂ (f := maskIrf s inp.big inp.gammaInfo) (P := fun _ _ => True) (masks gammas sel) (by
      intro m hm
      obtain ⟨r, hr⟩ := maskIrf_total hp inp.big inp.gammaInfo m (by
        intro g hg
        simp only [masks, List.mem_cons, List.not_mem_nil, or_false] at hm
        rcases hm with rfl | rfl | rfl | rfl
        · exact hnw g (select_mem hg)
        · exact hnw g hg
        · exact hnw g (select_mem hg)
        · exact hnw g (select_mem hg))
      exact ⟨r, hr, trivial⟩)
    exact ⟨r, hr⟩
  obtain ⟨irfs, hirf⟩ := hirf
  obtain ⟨bias, hbias, -⟩ := Bench.C45_default_functions .reco ((select gammas sel.gammaSelected).map Row.toBench) s.recoEnergyBins hR.increasing1.increasing (by omega) insideSel
  obtain ⟨ang, hang, -⟩ := Bench.C46_table .reco [Bench.oneSigmaCoverage] (by simp [Bench.oneSigma_nonneg, Bench.oneSigma_le_one])
    ((select gammas sel.gammaGh).map Row.toBench) s.recoEnergyBins hR.increasing1.increasing (by omega) insideGh
  have hmem : ∀ i, rEdges s.sourceOffsetBins i ∈ s.sourceOffsetBins := by
    intro i
    unfold rEdges
    rw [edges_get _ _ _ (by omega)]
    exact List.getElem_mem _
  obtain ⟨psf, hpsf, -⟩ := Irf.C41_psf_table inp.big ((select gammas sel.gammaGh).map Row.toReco) (fEdges s.trueEnergyBins)
    (incEdges_of _ hp.trueBins.increasing1 hT2) (rEdges s.sourceOffsetBins) (strictMono_of _ hp.sourceBins) (h0 _ (hmem _)).1 (h0 _ (hmem _)).2
    _ (incEdges_fin _ hp.fovBins) (by omega)
  obtain ⟨bg, hbg⟩ := background_total ((select background sel.backgroundGh).map Row.toBackground) (incEdges_of _ hR.increasing1 hR2)
    (incEdges_fin _ hp.backgroundFov) s.tObs
  unfold analyse
  rw [hsel]
  simp only [bind, Except.bind, hsens, hirf]
  rw [hbias]
  simp only [hang]
  rw [hpsf]
  simp only [hbg]
  exact ⟨_, rfl⟩

/-- the theta cuts, the optimization and the selections succeed -/
theorem selection_total {inp : Input} (hr : Runnable inp) {s : Settings} (hs : settings = .ok s) {gammas protons electrons : List Row}
    (hg : List.Forall₂ (IsPrepared inp.gammaInfo crabFlux "gamma") inp.gammas gammas)
    (hpr : List.Forall₂ (IsPrepared inp.protonInfo protonFlux "proton") inp.protons protons)
    (hel : List.Forall₂ (IsPrepared inp.electronInfo electronFlux "electron") inp.electrons electrons) :
    ∃ sel, selection s inp.brentq gammas (protons ++ electrons) = .ok sel := by
  obtain ⟨s', hs', hp, -, -, -, heff, -⟩ := settings_ok
  obtain rfl := Except.ok.inj (hs'.symm.trans hs)
  obtain ⟨-, -, hrad, -⟩ := settings_const hs
  have hS := hp.sensitivityBins
  have hT := hp.thetaBins
  obtain ⟨b0, hb0, ⟨x0, hx0, hbx⟩, hbmax⟩ := hr.best
  obtain ⟨r0, hr0, hrb⟩ := forall₂_mem_left hg hb0
  have hne : gammas ≠ [] := List.ne_nil_of_mem hr0
  have hin0 : ∃ i, InBin s'.sensitivityBins i r0.recoEnergy := by
    rw [hrb.energy.2, hbx]
    exact hS.inBin hx0
  have nwg := noWeighted hg (by decide)
  have nwb : ∀ r ∈ protons ++ electrons, r.particle ≠ "weighted" := by
    intro r hr
    rcases List.mem_append.mp hr with h | h
    · exact noWeighted hpr (by decide) r h
    · exact noWeighted hel (by decide) r h
  obtain ⟨t, q, coarse, fine, ht, -, a1, a2, a3, a4, a5, -⟩ := thetaCutsOf_spec hp heff gammas hne (prepared_finite hg) (by
    intro q _ hq
    obtain ⟨xs, e1, -⟩ := fin_list (l := gammas) (f := Row.gh) (by
      intro g hgm
      obtain ⟨e, he, hge⟩ := forall₂_mem_right hg hgm
      rw [hge.gh]
      exact hr.scores e he)
    obtain ⟨v, rfl, hv⟩ := hq.finite xs e1
    obtain ⟨y, hy⟩ := hr.scores b0 hb0
    refine ⟨(r0.theta, r0.recoEnergy), List.mem_map.mpr ⟨r0, List.mem_filter.mpr ⟨hr0, ?_⟩, rfl⟩, hin0⟩
    show FV.le (.fin v) r0.gh = true
    rw [hrb.gh, hy]
    have hle : v ≤ y := percentile_le hv (by
      intro x hx
      have hx' : FV.fin x ∈ gammas.map Row.gh := by rw [e1]; exact List.mem_map.mpr ⟨x, hx, rfl⟩
      obtain ⟨g, hgm, hgx⟩ := List.mem_map.mp hx'
      obtain ⟨e, he, hge⟩ := forall₂_mem_right hg hgm
      have := hbmax e he
      rw [← hge.gh, hgx, hy] at this
      simpa [FV.le] using this)
    simpa [FV.le] using hle)
  have tlen : t.cut.length = s'.thetaBins.length - 1 := by rw [a4, List.length_map, a5]
  have w : WellFormed (optimizeArgs s' inp.brentq gammas (protons ++ electrons)) s'.sensitivityBins := by
    refine ⟨rfl, hS.increasing1, hS.two, ?_, ?_, ?_, ?_, ?_, ⟨_, hp.alpha, rfl⟩, ⟨0, s'.maxBgRadius, le_refl _, hp.radius.1, hp.radius.2, rfl, rfl⟩, hr.brentq⟩
    · simpa [optimizeArgs] using hne
    · intro _ e he
      obtain ⟨r, hr, rfl⟩ := List.mem_map.mp he
      exact nwg r hr
    · intro _ e he
      obtain ⟨r, hr, rfl⟩ := List.mem_map.mp he
      exact nwb r hr
    · intro e he
      obtain ⟨r, hrm, rfl⟩ := List.mem_map.mp he
      obtain ⟨_, -, hh⟩ := forall₂_mem_right hg hrm
      exact hh.positive.le
    · intro e he
      obtain ⟨r, hrm, rfl⟩ := List.mem_map.mp he
      rcases List.mem_append.mp hrm with h | h
      · obtain ⟨_, -, hh⟩ := forall₂_mem_right hpr h
        exact hh.positive.le
      · obtain ⟨_, -, hh⟩ := forall₂_mem_right hel h
        exact hh.positive.le
  obtain ⟨best, hbest⟩ := C79_optimize_gh_cut_succeeds w s'.ghEff hp.eff.1 hp.eff.2 t FV.ge s'.thetaBins hT.increasing1 hT.two a1 a2 tlen
    (sameTypes hr hp (by rw [hrad, one_mul]) hg hpr hel) ⟨r0.toEv, List.mem_map.mpr ⟨r0, hr0, rfl⟩, hin0⟩
  obtain ⟨_, _, -, -, -, hlen, -⟩ := optimizeGhCut_spec w.bins w.incr w.sigParticle w.bgParticle _ _ _ _ hbest
  unfold selection
  rw [ht]
  simp only [bind, Except.bind, hbest]
  rw [eval_mask hS.increasing1.increasing hS.two (ghTable s'.sensitivityBins best) rfl rfl hlen FV.ge]
  simp only []
  rw [eval_mask hS.increasing1.increasing hS.two (ghTable s'.sensitivityBins best) rfl rfl hlen FV.ge]
  simp only []
  rw [eval_mask hT.increasing1.increasing hT.two t a1 a2 tlen FV.le]
  exact ⟨_, rfl⟩

/-! ## C135 -/

/-- **C135** (the script runs) With proper simulations, finite gamma scores, a finite non-negative energy of a gamma of highest score, and both kinds of background surviving
all gh cuts (or not reaching the ring at all), the script writes its result, whatever the other events are: empty energy bins, other events with NaN energies and missing
background do not stop it. -/
theorem C135_runs (inp : Input) (h : Runnable inp) : ∃ s out, main inp = .ok ⟨s, out⟩ := by
  obtain ⟨s, hs, hp, -⟩ := settings_ok
  obtain ⟨g, p, e, hev, hg, hpp, he⟩ := eventLists_spec inp h.simulations s (settings_const hs).1
  obtain ⟨sel, hsel⟩ := selection_total h hs hg hpp he
  obtain ⟨c, hc, -⟩ := crab_flux
  obtain ⟨out, hout⟩ := analyse_total (inp := inp) hp (source_range hs) c g (p ++ e) (noWeighted hg (by decide)) (by
    intro r hr
    rcases List.mem_append.mp hr with h | h
    · exact noWeighted hpp (by decide) r h
    · exact noWeighted he (by decide) r h) hsel
  refine ⟨s, out, ?_⟩
  unfold main
  rw [hs]
  simp only [bind, Except.bind, hev, hc, hout]
  rfl

/-- **C135** (deviation) If no gamma has a finite non-negative reconstructed energy (for instance there are only NaN energies, or no gammas at all), the script fails with an
IndexError, raised by grouping an empty table. -/
theorem C135_no_energies (inp : Input) (h : ProperSimulations inp) (hno : ∀ e ∈ inp.gammas, ∀ x, 0 ≤ x → e.recoEnergy ≠ .fin x) :
    main inp = .error .indexError := by
  by_cases hne : inp.gammas = []
  · exact C132_no_gammas inp h hne
  obtain ⟨s, hs, hp, -, -, -, heff, -⟩ := settings_ok
  obtain ⟨c, hc, -⟩ := crab_flux
  obtain ⟨g, p, e, hev, hg, -⟩ := eventLists_spec inp h s (settings_const hs).1
  have hgne : g ≠ [] := by
    rintro rfl
    exact hne (List.eq_nil_of_length_eq_zero hg.length_eq)
  obtain ⟨q, hq, -⟩ := npQuantile_spec s heff g hgne
  have hnone := (C08_no_event_in_bins (passingThetas g q) s.sensitivityBins (.fin s.thetaMax) s.percentile [] (some (.fin s.thetaMin))
      (some (.fin s.thetaMax)) minEventsDefault hp.sensitivityBins.increasing1.increasing (by have := hp.sensitivityBins.two; omega) (by
    intro t ht i hi
    obtain ⟨y, hy, hty⟩ := hp.sensitivityBins.range hi
    obtain ⟨r, hr, rfl⟩ := List.mem_map.mp ht
    obtain ⟨raw, hraw, hpr⟩ := forall₂_mem_right hg (List.mem_of_mem_filter hr)
    exact hno raw hraw y hy (hpr.energy.2.symm.trans hty))).1
  have htheta : thetaCutsOf s g = .error .indexError := by
    unfold thetaCutsOf
    rw [hq]
    show (percentileCut (passingThetas g q) s.sensitivityBins (.fin s.thetaMax) s.percentile (some (.fin s.thetaMin)) (some (.fin s.thetaMax))
      minEventsDefault >>= _) = _
    rw [hnone]
    rfl
  unfold main
  rw [hs]
  simp only [bind, Except.bind, hev, hc]
  unfold analyse selection
  rw [htheta]
  rfl

/-- such an input exists: the energies of both gammas of the example are made NaN -/
example : main { exInput idealRoot with gammas := (exInput idealRoot).gammas.map fun e => { e with recoEnergy := .nan } } = .error .indexError := by
  have hp := exInput_proper idealRoot
  refine C135_no_energies _ ⟨hp.gamma, hp.proton, hp.electron, ?_⟩ ?_
  · intro e he
    simp only [List.mem_append, List.mem_map] at he
    rcases he with (⟨e', he', rfl⟩ | he) | he
    · exact hp.energies e' (by simp [he'])
    · exact hp.energies e (by simp [he])
    · exact hp.energies e (by simp [he])
  · intro e he x _
    obtain ⟨e', -, rfl⟩ := List.mem_map.mp he
    simp

/-! ## A concrete run -/

theorem exRaw_inRing (E gh : ℝ) : InRing (exRaw E gh) := by
  refine ⟨0, ⟨le_refl _, Real.pi_pos.le, ?_⟩, by rw [one_mul]; exact deg_pos⟩
  rw [Coords.dot_unit]
  simp [exRaw]

theorem exInput_runnable : Runnable (exInput idealRoot) := by
  refine ⟨exInput_proper _, ?_, ?_, ?_, ?_, ?_⟩
  · refine ⟨exRaw 3 0.6, by simp [exInput], ⟨3, by norm_num, rfl⟩, ?_⟩
    intro g hg
    simp only [exInput, List.mem_cons, List.not_mem_nil, or_false] at hg
    rcases hg with rfl | rfl <;> norm_num [exRaw, FV.le_fin]
  · intro e he
    simp only [exInput, List.mem_cons, List.not_mem_nil, or_false] at he
    rcases he with rfl | rfl <;> exact ⟨_, rfl⟩
  · intro f a b e he
    right
    simp only [exInput] at he
    unfold idealRoot at he
    split at he
    · split at he
      · cases he
      · cases he; rfl
    · cases he; rfl
  · intro _
    refine ⟨exRaw 4 1, by simp [exInput], exRaw_inRing _ _, ⟨4, by norm_num, rfl⟩, ?_⟩
    intro g hg
    simp only [exInput, List.mem_cons, List.not_mem_nil, or_false] at hg
    rcases hg with rfl | rfl <;> norm_num [exRaw, FV.le_fin]
  · intro _
    refine ⟨exRaw 5 1, by simp [exInput], exRaw_inRing _ _, ⟨5, by norm_num, rfl⟩, ?_⟩
    intro g hg
    simp only [exInput, List.mem_cons, List.not_mem_nil, or_false] at hg
    rcases hg with rfl | rfl <;> norm_num [exRaw, FV.le_fin]

/-- a concrete run: the hypotheses of C132 to C135 can be met -/
theorem exRun : ∃ s out, main (exInput idealRoot) = .ok ⟨s, out⟩ := C135_runs _ exInput_runnable

theorem exRun_edges {s : Settings} (h : settings = .ok s) : EdgeInRange s (exInput idealRoot).gammaInfo := by
  obtain ⟨s', hs', -, -, -, ht, -⟩ := C136_settings
  obtain rfl := Except.ok.inj (hs'.symm.trans h)
  unfold EdgeInRange
  rw [ht]
  refine ⟨.fin ((10:ℝ) ^ (-1.9 + ((19:ℕ):ℝ) / ((10:ℕ):ℝ))), ?_, ?_⟩
  · unfold energyEdges
    refine List.mem_cons_of_mem _ (List.mem_append_left _ (List.mem_map.mpr ⟨19, by simp, rfl⟩))
  · norm_num [exInput, exGamma, exInfo, FV.le_fin]

/-- the four effective areas of the concrete run -/
example : ∃ s out, main (exInput idealRoot) = .ok ⟨s, out⟩ ∧ out.irfs.length = 4 := by
  obtain ⟨s, out, h⟩ := exRun
  obtain ⟨_, _, _, hs, -⟩ := main_steps h
  obtain ⟨_, _, _, _, h4, -⟩ := C134_order _ (exInput_proper _) s out h (exRun_edges hs)
  exact ⟨s, out, h, by rw [h4]; rfl⟩

/-- theta cuts, selections and densities of the concrete run -/
example : ∃ s out, main (exInput idealRoot) = .ok ⟨s, out⟩ ∧ out.sel.gammaTheta.length = 2 ∧ out.sel.backgroundGh.length = 2 ∧
    out.sel.thetaCuts.cut.length = s.thetaBins.length - 1 := by
  obtain ⟨s, out, h⟩ := exRun
  obtain ⟨g, p, e, sp, f⟩ := main_facts (exInput_proper _) h
  obtain ⟨g', b', hl, h1, -, h3, -⟩ := C133_selections _ (exInput_proper _) s out h
  have hpair := Except.ok.inj (f.lists.symm.trans hl)
  obtain ⟨rfl, rfl⟩ := Prod.mk.inj hpair
  have l1 := f.gammaRows.length_eq
  have l2 := f.protonRows.length_eq
  have l3 := f.electronRows.length_eq
  simp only [exInput, List.length_cons, List.length_nil] at l1 l2 l3
  refine ⟨s, out, h, ?_, ?_, f.cut⟩
  · rw [h1, List.length_map]; omega
  · rw [h3, List.length_map, List.length_append]; omega

end Pyirf.Examples
