import Verif.Pipeline.MoreProps
import Verif.Cuts.PercentileProps
import Verif.Bench.Lemmas
import Verif.Sensitivity.BgProps
import Verif.Sensitivity.TableProps

/-!
# What is computed for a bin depends only on the events in the bin (C160)

Two event lists that contain the same events (in the same order; other orders: C118) in one bin give the same values in this bin, whatever the
other events are. Energies, offsets and weights of events outside the bin, e.g. NaN energies, cannot change it.
-/
set_option linter.unusedSectionVars false
set_option linter.unusedSimpArgs false

namespace Pyirf.Pipeline
open Pyirf Pyirf.Np Pyirf.Simulations Pyirf.Irf Pyirf.Utils Pyirf.Binning Pyirf.Cuts Pyirf.Sensitivity

open Classical in
/-- the events with the property `P` are the same in both lists -/
def SameWhere {α : Type*} (P : α → Prop) (l l' : List α) : Prop := l.filter (fun e => decide (P e)) = l'.filter (fun e => decide (P e))

section same
variable {α : Type*}

theorem filter_sub {l : List α} {P Q : α → Prop} [DecidablePred P] [DecidablePred Q] (h : ∀ e, Q e → P e) :
    l.filter (fun e => decide (Q e)) = (l.filter (fun e => decide (P e))).filter (fun e => decide (Q e)) := by
  rw [List.filter_filter]
  apply List.filter_congr
  intro e _
  by_cases hq : Q e
  · simp [hq, h e hq]
  · simp [hq]

theorem SameWhere.filter {P : α → Prop} {l l' : List α} (hs : SameWhere P l l') {Q : α → Prop} [DecidablePred Q] (h : ∀ e, Q e → P e) :
    l.filter (fun e => decide (Q e)) = l'.filter (fun e => decide (Q e)) := by
  classical
  rw [filter_sub h, filter_sub h (l := l')]
  unfold SameWhere at hs
  have e : ∀ k : List α, (k.filter (fun e => decide (P e))) = @List.filter α (fun e => @decide (P e) (Classical.propDecidable _)) k := by
    intro k
    apply List.filter_congr
    intro x _
    simp
  rw [e l, e l', hs]

theorem SameWhere.sum_eq {K : Type*} [Field K] [LinearOrder K] {P : α → Prop} {l l' : List α} (hs : SameWhere P l l') {Q : α → Prop} [DecidablePred Q]
    (h : ∀ e, Q e → P e) (w : α → K) : sumWhere l Q w = sumWhere l' Q w := by
  unfold sumWhere
  rw [hs.filter h]

theorem SameWhere.mono {P Q : α → Prop} {l l' : List α} (hs : SameWhere P l l') (h : ∀ e, Q e → P e) : SameWhere Q l l' := by
  classical
  unfold SameWhere
  have := hs.filter (Q := Q) h
  convert this
end same

/-! ## Response functions -/

section irf
variable {n m k : ℕ}

/-- **C160** Energy dispersion: the migration histogram of a (true energy, offset) bin depends only on the events in this bin. -/
theorem C160_energy_dispersion (big : ℝ) (l l' : List RecoEvent) (trueBins : Fin (n + 1) → FV ℝ) (ht : IncEdges trueBins)
    (fovBins : Fin (k + 1) → FV ℝ) (hf : IncEdges fovBins) (migBins : Fin (m + 1) → FV ℝ) (hm : IncEdges migBins) :
    ∃ D D', energyDispersion big l trueBins fovBins migBins = .ok D ∧ energyDispersion big l' trueBins fovBins migBins = .ok D' ∧
      ∀ i j, SameWhere (fun e : RecoEvent => InBinOf trueBins i e.trueEnergy ∧ InBinOf fovBins j e.offset) l l' → ∀ a, D i a j = D' i a j := by
  unfold energyDispersion
  rw [histogram3d_ok ht hm hf, histogram3d_ok ht hm hf]
  refine ⟨_, _, rfl, rfl, fun i j hs a => ?_⟩
  simp only [normalizeHist, sumWhere_map]
  have key : ∀ b, sumWhere l (fun s : RecoEvent => InBinOf trueBins i s.trueEnergy ∧ InBinOf migBins b (s.recoEnergy / s.trueEnergy) ∧ InBinOf fovBins j s.offset)
      (fun _ => (1:ℝ)) = sumWhere l' (fun s : RecoEvent => InBinOf trueBins i s.trueEnergy ∧ InBinOf migBins b (s.recoEnergy / s.trueEnergy) ∧ InBinOf fovBins j s.offset)
      (fun _ => (1:ℝ)) := fun b => hs.sum_eq (fun e h => ⟨h.1, h.2.2⟩) _
  simp only [key]

/-- **C160** Energy migration matrix. -/
theorem C160_migration_matrix (l l' : List RecoEvent) (trueBins : Fin (n + 1) → FV ℝ) (ht : IncEdges trueBins)
    (recoBins : Fin (m + 1) → FV ℝ) (hr : IncEdges recoBins) (fovBins : Fin (k + 1) → FV ℝ) (hf : IncEdges fovBins) :
    ∃ M M', energyMigrationMatrix l trueBins recoBins fovBins = .ok M ∧ energyMigrationMatrix l' trueBins recoBins fovBins = .ok M' ∧
      ∀ i j, SameWhere (fun e : RecoEvent => InBinOf trueBins i e.trueEnergy ∧ InBinOf fovBins j e.offset) l l' → ∀ a, M i a j = M' i a j := by
  unfold energyMigrationMatrix
  rw [histogram3d_ok ht hr hf, histogram3d_ok ht hr hf]
  refine ⟨_, _, rfl, rfl, fun i j hs a => ?_⟩
  simp only [sumWhere_map]
  have key : ∀ b, sumWhere l (fun s : RecoEvent => InBinOf trueBins i s.trueEnergy ∧ InBinOf recoBins b s.recoEnergy ∧ InBinOf fovBins j s.offset)
      (fun _ => (1:ℝ)) = sumWhere l' (fun s : RecoEvent => InBinOf trueBins i s.trueEnergy ∧ InBinOf recoBins b s.recoEnergy ∧ InBinOf fovBins j s.offset)
      (fun _ => (1:ℝ)) := fun b => hs.sum_eq (fun e h => ⟨h.1, h.2.2⟩) _
  simp only [key]

/-- **C160** Point spread function. -/
theorem C160_psf_table (big : ℝ) (l l' : List RecoEvent) (trueBins : Fin (n + 1) → FV ℝ) (ht : IncEdges trueBins)
    (off : Fin (m + 1) → ℝ) (ho : Monotone off) (fovBins : Fin (k + 1) → FV ℝ) (hf : IncEdges fovBins) :
    ∃ P P', psfTable big l trueBins off fovBins = .ok P ∧ psfTable big l' trueBins off fovBins = .ok P' ∧
      ∀ i j, SameWhere (fun e : RecoEvent => InBinOf trueBins i e.trueEnergy ∧ InBinOf fovBins j e.offset) l l' → ∀ a, P i j a = P' i j a := by
  unfold psfTable
  have hoE : IncEdges (finEdges off) := incEdges_fin ho
  rw [histogram3d_ok ht hf hoE, histogram3d_ok ht hf hoE]
  refine ⟨_, _, rfl, rfl, fun i j hs a => ?_⟩
  simp only [normalizePsf, sumWhere_map]
  have key : ∀ b, sumWhere l (fun s : RecoEvent => InBinOf trueBins i s.trueEnergy ∧ InBinOf fovBins j s.offset ∧ InBinOf (finEdges off) b s.theta)
      (fun _ => (1:ℝ)) = sumWhere l' (fun s : RecoEvent => InBinOf trueBins i s.trueEnergy ∧ InBinOf fovBins j s.offset ∧ InBinOf (finEdges off) b s.theta)
      (fun _ => (1:ℝ)) := fun b => hs.sum_eq (fun e h => ⟨h.1, h.2.1⟩) _
  simp only [key]

/-- **C160** Background rate per energy and offset. -/
theorem C160_background_2d (l l' : List BackgroundEvent) (energy : Fin (n + 1) → FV ℝ) (he : IncEdges energy) (off : Fin (m + 1) → ℝ) (ho : Monotone off)
    (tObs : ℝ) :
    ∃ B B', background2d l energy off tObs = .ok B ∧ background2d l' energy off tObs = .ok B' ∧
      ∀ i j, SameWhere (fun e : BackgroundEvent => InBinOf energy i e.energy ∧ InBinOf (finEdges off) j e.offset) l l' → B i j = B' i j := by
  unfold background2d
  have hoE : IncEdges (finEdges off) := incEdges_fin ho
  rw [histogram2d_ok he hoE, histogram2d_ok he hoE]
  refine ⟨_, _, rfl, rfl, fun i j hs => ?_⟩
  simp only [sumWhere_map]
  rw [hs.sum_eq (Q := fun s : BackgroundEvent => InBinOf energy i s.energy ∧ InBinOf (finEdges off) j s.offset) (fun _ h => h)]

/-- **C160** Effective area per energy and offset (when the simulated showers can be computed). -/
theorem C160_effective_area_fov (l l' : List TrueEvent) (s : Info) (bins : Fin (n + 1) → FV ℝ) (hb : IncEdges bins)
    (fov : Fin (m + 1) → ℝ) (hf : Monotone fov) (N : Fin n → Fin m → FV ℝ) (hN : nShowersPerEnergyAndFov s bins fov = .ok N) :
    ∃ A A', effectiveAreaPerEnergyAndFov l s bins fov = .ok A ∧ effectiveAreaPerEnergyAndFov l' s bins fov = .ok A' ∧
      ∀ i j, SameWhere (fun e : TrueEvent => InBinOf bins i e.energy ∧ InBinOf (finEdges fov) j e.offset) l l' → A i j = A' i j := by
  unfold effectiveAreaPerEnergyAndFov
  have hfE : IncEdges (finEdges fov) := incEdges_fin hf
  simp only [hN, histogram2d_ok hb hfE]
  refine ⟨_, _, rfl, rfl, fun i j hs => ?_⟩
  simp only [sumWhere_map]
  rw [hs.sum_eq (Q := fun s : TrueEvent => InBinOf bins i s.energy ∧ InBinOf (finEdges fov) j s.offset) (fun _ h => h)]

/-- **C160** Effective area in energy, offset and position angle. -/
theorem C160_effective_area_polar (l l' : List TrueEvent) (s : Info) (bins : Fin (n + 1) → FV ℝ) (hb : IncEdges bins)
    (fov : Fin (m + 1) → ℝ) (hf : Monotone fov) (pa : Fin (k + 1) → ℝ) (hpa : Monotone pa) (N : Fin n → Fin m → Fin k → FV ℝ)
    (hN : nShowers3dPolar s bins fov pa = .ok N) :
    ∃ A A', effectiveArea3dPolar l s bins fov pa = .ok A ∧ effectiveArea3dPolar l' s bins fov pa = .ok A' ∧
      ∀ i j a, SameWhere (fun e : TrueEvent => InBinOf bins i e.energy ∧ InBinOf (finEdges fov) j e.offset ∧ InBinOf (finEdges pa) a e.positionAngle) l l' →
        A i j a = A' i j a := by
  unfold effectiveArea3dPolar
  have hfE : IncEdges (finEdges fov) := incEdges_fin hf
  have hpE : IncEdges (finEdges pa) := incEdges_fin hpa
  simp only [hN, histogram3d_ok hb hfE hpE]
  refine ⟨_, _, rfl, rfl, fun i j a hs => ?_⟩
  simp only [sumWhere_map]
  rw [hs.sum_eq (Q := fun s : TrueEvent => InBinOf bins i s.energy ∧ InBinOf (finEdges fov) j s.offset ∧ InBinOf (finEdges pa) a s.positionAngle) (fun _ h => h)]

/-- **C160** Effective area per energy. -/
theorem C160_effective_area (t t' : EventTable ℝ) (s : Info) (bins : Fin (n + 1) → FV ℝ) (hb : IncEdges bins)
    (hw : t.hasParticle = true → "weighted" ∉ particles t.rows) (hw' : t'.hasParticle = true → "weighted" ∉ particles t'.rows)
    (N : Fin n → ℝ) (hN : ∀ i, nShowersPerEnergy s bins i = .fin (N i)) (hpos : ∀ i, N i ≠ 0) :
    ∃ A A', effectiveAreaPerEnergy t s bins = .ok A ∧ effectiveAreaPerEnergy t' s bins = .ok A' ∧
      ∀ i, SameWhere (fun e : Event ℝ => InBinOf bins i e.key) t.rows t'.rows → A i = A' i := by
  refine ⟨_, _, area1d_eq t s bins hb hw N hN hpos, area1d_eq t' s bins hb hw' N hN hpos, fun i hs => ?_⟩
  unfold numberWhere
  rw [hs.filter (fun _ h => h)]

/-- **C160** Effective area in energy, longitude and latitude (as many longitude as latitude bins; other numbers: C88). -/
theorem C160_effective_area_lonlat (l l' : List TrueEvent) (s : Info) {p : ℕ} (bins : Fin (n + 1) → FV ℝ) (hb : IncEdges bins)
    (g : Simulations.Grid p p) (hlon : Monotone g.lon) (hlat : Monotone g.lat) (S : ℕ) (N : Fin n → Fin p → Fin p → FV ℝ)
    (hN : nShowers3dLonlat s bins g S = .ok N) :
    ∃ A A', effectiveArea3dLonlat l s bins g S = .ok A ∧ effectiveArea3dLonlat l' s bins g S = .ok A' ∧ A.shape = A'.shape ∧
      ∀ (i : Fin n) (a b : Fin p), SameWhere (fun e : TrueEvent => InBinOf bins i e.energy ∧ InBinOf (finEdges g.lon) a e.lon ∧ InBinOf (finEdges g.lat) b e.lat) l l' →
        A.val i a b = A'.val i a b := by
  obtain ⟨A, a1, a2, a3⟩ := lonlat_square l s bins hb g hlon hlat S N hN
  obtain ⟨A', b1, b2, b3⟩ := lonlat_square l' s bins hb g hlon hlat S N hN
  refine ⟨A, A', a1, b1, a2.trans b2.symm, fun i a b hs => ?_⟩
  rw [a3, b3]
  unfold numberWhere
  rw [hs.filter (Q := fun e : TrueEvent => InBinOf bins i e.energy ∧ InBinOf (finEdges g.lon) a e.lon ∧ InBinOf (finEdges g.lat) b e.lat) (fun _ h => h)]

/-- **C160** Background rate in energy, longitude and latitude (as many longitude as latitude bins; other numbers: C43). -/
theorem C160_background_3d (l l' : List BackgroundEvent) {p : ℕ} (energy : Fin (n + 1) → ℝ) (he : StrictMono energy) (lon lat : Fin (p + 1) → ℝ)
    (hlon : StrictMono lon) (hlat : StrictMono lat) (hb : ∀ x, |lat x| ≤ Real.pi / 2) (tObs : ℝ) (ht : 0 < tObs) (hn : 0 < n) (hp : 0 < p) :
    ∃ B B', background3dLonlat l (finEdges energy) lon lat tObs = .ok B ∧ background3dLonlat l' (finEdges energy) lon lat tObs = .ok B' ∧ B.shape = B'.shape ∧
      ∀ (i : Fin n) (a b : Fin p), SameWhere (fun e : BackgroundEvent => InBinOf (finEdges energy) i e.energy ∧ InBinOf (finEdges lon) a e.lon ∧
        InBinOf (finEdges lat) b e.lat) l l' → B.val i a b = B'.val i a b := by
  obtain ⟨B, hB⟩ := (C43_error_iff l energy he lon hlon.monotone lat hlat.monotone tObs ht).2.mpr (Or.inl rfl)
  obtain ⟨B', hB'⟩ := (C43_error_iff l' energy he lon hlon.monotone lat hlat.monotone tObs ht).2.mpr (Or.inl rfl)
  obtain ⟨s1, v1⟩ := C43_entries l energy he lon lat hlon hlat hb tObs ht hn hp hp B hB
  obtain ⟨s2, v2⟩ := C43_entries l' energy he lon lat hlon hlat hb tObs ht hn hp hp B' hB'
  refine ⟨B, B', hB, hB', s1.trans s2.symm, fun i a b hs => ?_⟩
  obtain ⟨x, hx, hx'⟩ := v1 i a b b b (by rw [max_self]; exact b.2) (Or.inl rfl) (Or.inl rfl)
  obtain ⟨y, hy, hy'⟩ := v2 i a b b b (by rw [max_self]; exact b.2) (Or.inl rfl) (Or.inl rfl)
  have hcell : 0 < cellSolidAngle (lon b.castSucc) (lon b.succ) (lat b.castSucc) (lat b.succ) := by
    unfold cellSolidAngle
    refine mul_pos (sub_pos.mpr (hlon Fin.castSucc_lt_succ)) (sub_pos.mpr ?_)
    exact Real.sin_lt_sin_of_lt_of_le_pi_div_two (abs_le.mp (hb _)).1 (abs_le.mp (hb _)).2 (hlat Fin.castSucc_lt_succ)
  have hE : 0 < energy i.succ - energy i.castSucc := sub_pos.mpr (he Fin.castSucc_lt_succ)
  have hne : (energy i.succ - energy i.castSucc) * cellSolidAngle (lon b.castSucc) (lon b.succ) (lat b.castSucc) (lat b.succ) * tObs ≠ 0 := by positivity
  rw [hx, hy]
  congr 1
  apply mul_right_cancel₀ hne
  unfold weightWhere at hx' hy'
  rw [hs.sum_eq (Q := fun e : BackgroundEvent => InBinOf (finEdges energy) i e.energy ∧ InBinOf (finEdges lon) a e.lon ∧ InBinOf (finEdges lat) b e.lat)
    (fun _ h => h), ← hy'] at hx'
  linarith

end irf

/-! ## Histogram tables -/

/-- **C160** Histogram tables: the counts and weights of a bin, also of each particle type of both lists. -/
theorem C160_histogram_table {K : Type*} [Field K] [LinearOrder K] [IsStrictOrderedRing K] (t t' : EventTable K) (hw : t.hasWeight = t'.hasWeight)
    (edges : List (FV K)) (h : Increasing edges) (hl : 2 ≤ edges.length)
    (hc : t.hasParticle = true → NoClash t.rows) (hc' : t'.hasParticle = true → NoClash t'.rows) :
    ∃ tab tab', createHistogramTable t edges = .ok tab ∧ createHistogramTable t' edges = .ok tab' ∧
      ∀ i, i + 1 < edges.length → SameWhere (fun e : Event K => InHistBin edges i e.key) t.rows t'.rows →
        tab.cell "n" i = tab'.cell "n" i ∧ tab.cell "n_weighted" i = tab'.cell "n_weighted" i ∧
        (t.hasParticle = true → t'.hasParticle = true → ∀ p ∈ particles t.rows, p ∈ particles t'.rows →
          tab.cell ("n_" ++ p) i = tab'.cell ("n_" ++ p) i ∧ tab.cell ("n_" ++ p ++ "_weighted") i = tab'.cell ("n_" ++ p ++ "_weighted") i) := by
  obtain ⟨tab, a1, -, -, -, a2, -, -, a3⟩ := C05_histogram_table t edges h hl hc
  obtain ⟨tab', b1, -, -, -, b2, -, -, b3⟩ := C05_histogram_table t' edges h hl hc'
  have ew : effWeight t' = effWeight t := by unfold effWeight; rw [hw]
  refine ⟨tab, tab', a1, b1, fun i hi hs => ⟨?_, ?_, ?_⟩⟩
  · rw [(a2 i hi).1, (b2 i hi).1]
    unfold countEvents
    rw [hs.filter (Q := fun e : Event K => InHistBin edges i e.key) (fun _ h => h)]
  · rw [(a2 i hi).2, (b2 i hi).2, ew]
    unfold sumOver
    rw [hs.filter (Q := fun e : Event K => InHistBin edges i e.key) (fun _ h => h)]
  · intro hp hp' p hm hm'
    have x := (a3 hp i hi).1 p hm
    have y := (b3 hp' i hi).1 p hm'
    rw [x.1, x.2, y.1, y.2, ew]
    unfold countEvents sumOver
    rw [hs.filter (Q := fun e : Event K => e.particle = p ∧ InHistBin edges i e.key) (fun _ h => h.2)]
    exact ⟨rfl, rfl⟩

/-! ## Cuts and benchmarks -/

section cuts
variable {K : Type*} [Field K] [LinearOrder K] [IsStrictOrderedRing K] [FloorRing K]

theorem group_same {bins : List (FV K)} {evs evs' : List (FV K × FV K)} {i : ℕ} (hs : SameWhere (fun e : FV K × FV K => InBin bins i e.2) evs evs') :
    group bins evs i = group bins evs' i := by
  unfold group
  rw [hs.filter (Q := fun e : FV K × FV K => InBin bins i e.2) (fun _ h => h)]

/-- **C160** Percentile cuts: the number of events and the cut of a bin (without smoothing). -/
theorem C160_percentile_cut (evs evs' : List (FV K × FV K)) (bins : List (FV K)) (fill : FV K) (p : K) (minV maxV : Option (FV K)) (minEvents : ℤ)
    (h : Increasing bins) (hl : 0 < bins.length) (h0 : 0 ≤ p) (h1 : p ≤ 100)
    (hin : ∃ e ∈ evs, ∃ i, InBin bins i e.2) (hin' : ∃ e ∈ evs', ∃ i, InBin bins i e.2) :
    ∃ t t', percentileCut evs bins fill p minV maxV minEvents = .ok t ∧ percentileCut evs' bins fill p minV maxV minEvents = .ok t' ∧
      ∀ i, i + 1 < bins.length → SameWhere (fun e : FV K × FV K => InBin bins i e.2) evs evs' →
        t.nEvents[i]? = t'.nEvents[i]? ∧ t.cut[i]? = t'.cut[i]? := by
  refine ⟨_, _, percentileCut_eq evs fill minV maxV minEvents h hl h0 h1 hin, percentileCut_eq evs' fill minV maxV minEvents h hl h0 h1 hin', fun i hi hs => ?_⟩
  have : i < bins.length - 1 := by omega
  simp only [List.getElem?_map, List.getElem?_range this, Option.map_some, group_same hs, and_self]
end cuts

/-- **C160** Energy bias and resolution: number of events, bias and resolution of a bin. -/
theorem C160_energy_bias_resolution (bf rf : List (FV ℝ) → Except Err (FV ℝ)) (hb : ∀ g, ∃ v, bf g = .ok v) (hr : ∀ g, ∃ v, rf g = .ok v)
    (t : Bench.EnergyType) (l l' : List Bench.Event) (bins : List (FV ℝ)) (h : Increasing bins) (hl : 0 < bins.length)
    (hin : Bench.EmptyOrInside t bins l) (hin' : Bench.EmptyOrInside t bins l') :
    ∃ T T', Bench.energyBiasResolution bf rf t l bins = .ok T ∧ Bench.energyBiasResolution bf rf t l' bins = .ok T' ∧
      ∀ i, i + 1 < bins.length → SameWhere (fun e : Bench.Event => InBin bins i (e.energy t)) l l' →
        T.nEvents[i]? = T'.nEvents[i]? ∧ T.bias[i]? = T'.bias[i]? ∧ T.resolution[i]? = T'.resolution[i]? := by
  choose bv hbv using hb
  choose rv hrv using hr
  refine ⟨_, _, Bench.energyBiasResolution_eq bf rf bv rv hbv hrv t l h hl hin, Bench.energyBiasResolution_eq bf rf bv rv hbv hrv t l' h hl hin',
    fun i hi hs => ?_⟩
  have hi' : i < bins.length - 1 := by omega
  have key : group bins (Bench.errPairs t l) i = group bins (Bench.errPairs t l') i := by
    unfold group Bench.errPairs
    rw [List.filter_map, List.filter_map]
    have := hs.filter (Q := fun e : Bench.Event => InBin bins i (e.energy t)) (fun _ h => h)
    exact congrArg (fun x => (List.map (fun e : Bench.Event => (e.relError, e.energy t)) x).map Prod.fst) this
  simp only [List.getElem?_map, List.getElem?_range hi', Option.map_some, key, and_self]

/-- **C160** Angular resolution: number of events and resolutions of a bin. -/
theorem C160_angular_resolution (t : Bench.EnergyType) (qs : List ℝ) (hq : ∀ q ∈ qs, 0 ≤ q ∧ q ≤ 1) (l l' : List Bench.Event) (bins : List (FV ℝ))
    (h : Increasing bins) (hl : 0 < bins.length) (hin : Bench.EmptyOrInside t bins l) (hin' : Bench.EmptyOrInside t bins l') :
    ∃ T T', Bench.angularResolution t qs l bins = .ok T ∧ Bench.angularResolution t qs l' bins = .ok T' ∧
      ∀ (j : ℕ) (hj : j < qs.length), (∀ j' (_ : j' < qs.length), j < j' → Bench.quantileKey qs[j'] ≠ Bench.quantileKey qs[j]) →
        ∃ c c', T.cols (Bench.quantileKey qs[j]) = some c ∧ T'.cols (Bench.quantileKey qs[j]) = some c' ∧
          ∀ i, i + 1 < bins.length → SameWhere (fun e : Bench.Event => InBin bins i (e.energy t)) l l' →
            T.nEvents[i]? = T'.nEvents[i]? ∧ c[i]? = c'[i]? := by
  obtain ⟨T, a1, a2⟩ := Bench.angularResolution_eq t qs hq l h hl hin
  obtain ⟨T', b1, b2⟩ := Bench.angularResolution_eq t qs hq l' h hl hin'
  refine ⟨T, T', a1, b1, fun j hj hlast => ?_⟩
  obtain ⟨-, -, -, a3, a4⟩ := a2 j hj hlast
  obtain ⟨-, -, -, b3, b4⟩ := b2 j hj hlast
  refine ⟨_, _, a4, b4, fun i hi hs => ?_⟩
  have hi' : i < bins.length - 1 := by omega
  have key : group bins (Bench.thetaPairs t l) i = group bins (Bench.thetaPairs t l') i := by
    unfold group Bench.thetaPairs
    rw [List.filter_map, List.filter_map]
    have := hs.filter (Q := fun e : Bench.Event => InBin bins i (e.energy t)) (fun _ h => h)
    exact congrArg (fun x => (List.map (fun e : Bench.Event => (e.theta, e.energy t)) x).map Prod.fst) this
  rw [a3, b3]
  simp only [List.getElem?_map, List.getElem?_range hi', Option.map_some, key, and_self]

/-! ## Sensitivity -/

/-- the counts of bin `i` are the same number in both tables -/
def SameCell (o o' : Table (FV ℝ)) (name : String) (i : ℕ) : Prop := ∃ x : ℝ, HasCell o name i x ∧ HasCell o' name i x

/-- **C160** Background estimate: the estimated counts of a bin depend only on the ring events in this bin. -/
theorem C160_estimate_background (hasWeight hasParticle : Bool) (l l' : List BgEvent) (E : List (FV ℝ)) (hE : Np.Increasing1 E)
    (xs : List (FV ℝ)) (θs : List ℝ) (hxs : Np.Increasing1 xs) (hne : xs ≠ []) (hl : θs.length = xs.length) (α lo hi : ℝ) (hα : α ≠ 0)
    (h0 : 0 ≤ lo) (h1 : lo < hi) (h2 : hi ≤ Real.pi)
    (hw : hasParticle = true → ∀ e ∈ l, e.particle ≠ "weighted") (hw' : hasParticle = true → ∀ e ∈ l', e.particle ≠ "weighted") :
    ∃ out out', estimateBackground hasWeight hasParticle l E (xs.zip (θs.map .fin)) (.fin α) (.fin lo) (.fin hi) = .ok out ∧
      estimateBackground hasWeight hasParticle l' E (xs.zip (θs.map .fin)) (.fin α) (.fin lo) (.fin hi) = .ok out' ∧
      ∀ i, i + 1 < E.length →
        SameWhere (fun e : BgEvent => InHistBin E i e.energy ∧ ∃ o, e.offset = .fin o ∧ lo ≤ o ∧ o < hi) l l' →
        SameCell out out' "n" i ∧ SameCell out out' "n_weighted" i := by
  obtain ⟨out, a1, -, -, a2⟩ := C22_scaled_counts hasWeight hasParticle l E hE xs θs hxs hne hl α lo hi hα h0 h1 h2 hw
  obtain ⟨out', b1, -, -, b2⟩ := C22_scaled_counts hasWeight hasParticle l' E hE xs θs hxs hne hl α lo hi hα h0 h1 h2 hw'
  refine ⟨out, out', a1, b1, fun i hi' hs => ?_⟩
  obtain ⟨θ, e1, x1, y1, -⟩ := a2 i hi'
  obtain ⟨θ', e2, x2, y2, -⟩ := b2 i hi'
  obtain rfl : θ = θ' := FV.fin.inj (e1.symm.trans e2)
  have key : ∀ w : BgEvent → ℝ, ringSum l lo hi E i (fun _ => True) w = ringSum l' lo hi E i (fun _ => True) w := by
    intro w
    classical
    unfold ringSum
    have := hs.filter (Q := fun e : BgEvent => (∃ o, e.offset = .fin o ∧ lo ≤ o ∧ o < hi) ∧ InHistBin E i e.energy ∧ True) (fun e he => ⟨he.2.1, he.1⟩)
    convert congrArg (fun x => (List.map w x).sum) this
  rw [← key] at x2 y2
  exact ⟨⟨_, x1, x2⟩, ⟨_, y1, y2⟩⟩

/-- a call of `calculate_sensitivity` that returns has computed every relative sensitivity -/
theorem sensitivity_rows {brentq : RootFn} {sig : SigFn} {signal background out : Table (FV ℝ)} {alpha : FV ℝ} {th : Thresholds}
    {low center high sN sW bN bW : List (FV ℝ)} (hs : IsHist signal low center high sN sW) (hb : IsHist background low center high bN bW)
    (h : calculateSensitivity brentq sig signal background alpha th = .ok out) :
    low ≠ [] ∧ ∀ (i : ℕ) (h1 : i < sW.length) (h2 : i < bW.length), ∃ r, relativeSensitivity1 brentq sig (sW[i] + alpha * bW[i]) bW[i] alpha th = .ok r := by
  have hlen : sW.length = bW.length := by rw [← hs.len.1, ← hb.len.1]
  obtain ⟨rel, hrel⟩ : ∃ rel, relativeSensitivity brentq sig (colAxpy sW alpha bW) bW alpha th = .ok rel := by
    unfold calculateSensitivity at h
    cases hck : Utils.checkHistograms signal background with
    | error e => rw [hck] at h; exact absurd h (by simp [bind, Except.bind])
    | ok u =>
      rw [hck, hs.nw, hb.nw] at h
      simp only [bind, Except.bind] at h
      cases hr : relativeSensitivity brentq sig (colAxpy sW alpha bW) bW alpha th with
      | ok rel => exact ⟨rel, rfl⟩
      | error e => rw [hr] at h; exact absurd h (by simp)
  have hrok := relativeSensitivity_ok (by simp [colAxpy, hlen]) hrel
  refine ⟨?_, fun i h1 h2 => ⟨rel[i]'(by rw [hrok.2.1]; exact h2), ?_⟩⟩
  · rintro rfl
    apply hrok.1
    have := hs.len.1
    simp only [List.length_nil] at this
    rw [List.length_eq_zero_iff.mp this.symm]
    rfl
  · have := hrok.2.2 i (by simp [colAxpy, hlen]; omega) h2 (by rw [hrok.2.1]; exact h2)
    simpa only [colAxpy, List.getElem_zipWith] using this

/-- **C160** Sensitivity: for two calls that return (same bins, thresholds and `alpha`), relative sensitivity, scaled signal and significance are equal in
every bin in which the counts of signal and background are equal. -/
theorem C160_sensitivity (brentq : RootFn) (sig : SigFn) (signal background signal' background' out out' : Table (FV ℝ)) (alpha : FV ℝ) (th : Thresholds)
    (low center high sN sW bN bW sN' sW' bN' bW' : List (FV ℝ))
    (hs : IsHist signal low center high sN sW) (hb : IsHist background low center high bN bW)
    (hs' : IsHist signal' low center high sN' sW') (hb' : IsHist background' low center high bN' bW')
    (hnan : ∀ x ∈ low ++ center ++ high, x ≠ .nan) (hres : ∀ c ∈ reserved, c ∉ background.names) (hres' : ∀ c ∈ reserved, c ∉ background'.names)
    (ho : calculateSensitivity brentq sig signal background alpha th = .ok out)
    (ho' : calculateSensitivity brentq sig signal' background' alpha th = .ok out') :
    ∀ name ∈ ["relative_sensitivity", "n_signal_weighted", "significance"], ∃ c c' : List (FV ℝ), out.get name = .ok c ∧ out'.get name = .ok c' ∧
      ∀ i : ℕ, sW[i]? = sW'[i]? → bW[i]? = bW'[i]? → c[i]? = c'[i]? := by
  obtain ⟨hne, hok⟩ := sensitivity_rows hs hb ho
  obtain ⟨-, hok'⟩ := sensitivity_rows hs' hb' ho'
  obtain ⟨o, rel, sgn, a0, -, -, -, -, -, -, a1, a2, a3, -, a4, a5, a6, a7⟩ := C21_table brentq sig signal background alpha th low center high sN sW bN bW hs hb hnan hne hres hok
  obtain ⟨o', rel', sgn', b0, -, -, -, -, -, -, b1, b2, b3, -, b4, b5, b6, b7⟩ :=
    C21_table brentq sig signal' background' alpha th low center high sN' sW' bN' bW' hs' hb' hnan hne hres' hok'
  obtain rfl := Except.ok.inj (ho.symm.trans a0)
  obtain rfl := Except.ok.inj (ho'.symm.trans b0)
  have l1 := hs.len.1
  have l2 := hb.len.1
  have l1' := hs'.len.1
  have l2' := hb'.len.1
  have key : ∀ i : ℕ, sW[i]? = sW'[i]? → bW[i]? = bW'[i]? → rel[i]? = rel'[i]? ∧ (List.zipWith (· * ·) sW rel)[i]? = (List.zipWith (· * ·) sW' rel')[i]? ∧ sgn[i]? = sgn'[i]? := by
    intro i e1 e2
    by_cases hi : i < low.length
    · have j1 : i < sW.length := by omega
      have j2 : i < bW.length := by omega
      have j1' : i < sW'.length := by omega
      have j2' : i < bW'.length := by omega
      have j3 : i < rel.length := by omega
      have j3' : i < rel'.length := by omega
      have j4 : i < sgn.length := by omega
      have j4' : i < sgn'.length := by omega
      rw [List.getElem?_eq_getElem j1, List.getElem?_eq_getElem j1'] at e1
      rw [List.getElem?_eq_getElem j2, List.getElem?_eq_getElem j2'] at e2
      have e1' := Option.some.inj e1
      have e2' := Option.some.inj e2
      have r1 := a3 i j1 j2 j3
      have r2 := b3 i j1' j2' j3'
      rw [← e1', ← e2', r1] at r2
      have hrel : rel[i] = rel'[i] := Except.ok.inj r2
      have g1 := a7 i j1 j2 j3 j4
      have g2 := b7 i j1' j2' j3' j4'
      rw [← e1', ← e2', ← hrel, ← g1] at g2
      refine ⟨?_, ?_, ?_⟩
      · rw [List.getElem?_eq_getElem j3, List.getElem?_eq_getElem j3', hrel]
      · rw [List.getElem?_zipWith, List.getElem?_zipWith, List.getElem?_eq_getElem j1, List.getElem?_eq_getElem j1', List.getElem?_eq_getElem j3,
          List.getElem?_eq_getElem j3', hrel, e1']
      · rw [List.getElem?_eq_getElem j4, List.getElem?_eq_getElem j4', g2]
    · refine ⟨?_, ?_, ?_⟩
      · rw [List.getElem?_eq_none (by omega), List.getElem?_eq_none (by omega)]
      · rw [List.getElem?_eq_none (by simp; omega), List.getElem?_eq_none (by simp; omega)]
      · rw [List.getElem?_eq_none (by omega), List.getElem?_eq_none (by omega)]
  intro name hn
  simp only [List.mem_cons, List.not_mem_nil, or_false] at hn
  rcases hn with rfl | rfl | rfl
  · exact ⟨_, _, a1, b1, fun i x y => (key i x y).1⟩
  · exact ⟨_, _, a4, b4, fun i x y => (key i x y).2.1⟩
  · exact ⟨_, _, a5, b5, fun i x y => (key i x y).2.2⟩

/-! ## Satisfiability -/

/-- two lists that differ only outside the bin [1, 2): another energy, and an event with NaN energy -/
example : SameWhere (fun e : FV ℚ × FV ℚ => InBin [.fin 1, .fin 2, .fin 4] 0 e.2)
    [(.fin 5, .fin 1), (.fin 6, .fin 3)] [(.fin 7, .nan), (.fin 5, .fin 1), (.fin 6, .fin (7/2)), (.fin 0, .fin 9)] := by
  unfold SameWhere
  rw [List.filter_congr (q := fun e : FV ℚ × FV ℚ => decide (InBin [.fin 1, .fin 2, .fin 4] 0 e.2)) (fun x _ => by congr),
    List.filter_congr (l := [(FV.fin 7, FV.nan), _, _, _]) (q := fun e : FV ℚ × FV ℚ => decide (InBin [.fin 1, .fin 2, .fin 4] 0 e.2)) (fun x _ => by congr)]
  decide +kernel

example : (∃ e ∈ [((.fin 5 : FV ℚ), (.fin 1 : FV ℚ)), (.fin 6, .fin 3)], ∃ i, InBin [.fin 1, .fin 2, .fin 4] i e.2) :=
  ⟨(.fin 5, .fin 1), by simp, 0, by decide +kernel⟩

end Pyirf.Pipeline
