import Verif.Pipeline.AddProps
import Verif.Pipeline.RebinProps

/-!
# Joining event lists and merging bins, continued (C119, C120, C121): effective area per energy, in polar and longitude/latitude bins, and the
energy migration matrix
-/
set_option linter.unusedSectionVars false
set_option linter.unusedSimpArgs false

namespace Pyirf.Pipeline
open Pyirf Pyirf.Np Pyirf.Simulations Pyirf.Irf Pyirf.Utils Pyirf.Binning

/-! ## Lemmas -/

theorem effectiveArea_fin (a N area : ℝ) (hN : N ≠ 0) : effectiveArea (.fin a) (.fin N) area = .fin (a / N * area) := by
  unfold effectiveArea
  rw [FV.fin_div_fin _ _ hN, FV.fin_mul_fin]

theorem pos_of_coarsens {n p : ℕ} {f : Fin (p + 1) → Fin (n + 1)} (hf : StrictMono f) (hp : 0 < p) : 0 < n := by
  have := Fintype.card_le_of_injective f hf.injective
  simp at this; omega

/-- the effective area in polar bins, from the numbers of simulated showers -/
theorem areaPolar_eq (events : List TrueEvent) (s : Info) {n m k : ℕ} (bins : Fin (n + 1) → FV ℝ) (hb : IncEdges bins)
    (fov : Fin (m + 1) → ℝ) (hf : Monotone fov) (pa : Fin (k + 1) → ℝ) (hpa : Monotone pa) (N : Fin n → Fin m → Fin k → ℝ)
    (hN : nShowers3dPolar s bins fov pa = .ok fun i j l => .fin (N i j l)) (hpos : ∀ i j l, N i j l ≠ 0) :
    effectiveArea3dPolar events s bins fov pa = .ok fun i j l =>
      .fin (numberWhere events (fun e => InBinOf bins i e.energy ∧ InBinOf (finEdges fov) j e.offset ∧ InBinOf (finEdges pa) l e.positionAngle) /
        N i j l * simulatedArea s) := by
  unfold effectiveArea3dPolar
  simp only [hN, histogram3d_ok hb (show IncEdges (finEdges fov) from incEdges_fin hf) (show IncEdges (finEdges pa) from incEdges_fin hpa)]
  congr 1
  funext i j l
  rw [sumWhere_count events (fun e => (e.energy, e.offset, e.positionAngle, (1:ℝ))) _ (fun r => r.2.2.2) (fun _ => rfl)]
  exact effectiveArea_fin _ _ _ (hpos i j l)

/-- the effective area per energy, from the numbers of simulated showers -/
theorem area1d_eq (t : EventTable ℝ) (s : Info) {n : ℕ} (bins : Fin (n + 1) → FV ℝ) (hb : IncEdges bins)
    (hw : t.hasParticle = true → "weighted" ∉ particles t.rows) (N : Fin n → ℝ) (hN : ∀ i, nShowersPerEnergy s bins i = .fin (N i)) (hpos : ∀ i, N i ≠ 0) :
    effectiveAreaPerEnergy t s bins = .ok fun i => .fin (numberWhere t.rows (fun e => InBinOf bins i e.key) / N i * simulatedArea s) := by
  obtain ⟨tab, h1, -, -, -, h2, -⟩ := createHistogramTable_cols hb.increasing t hw
  unfold effectiveAreaPerEnergy
  simp only [h1, h2, Option.getD_some]
  congr 1
  funext i
  have hcol : (column (List.ofFn bins) t.rows (fun _ => (1:ℝ))).getD i.val 0 =
      (numberWhere t.rows (fun e => InBinOf bins i e.key) : ℝ) := by
    unfold column
    rw [List.getD_eq_getElem?_getD, List.getElem?_map, List.getElem?_range (by simp)]
    simp only [Option.map_some, Option.getD_some]
    unfold sumOver numberWhere
    simp only [List.map_const', List.sum_replicate, nsmul_eq_mul, mul_one]
    congr 2
    apply List.filter_congr
    intro e _
    simp only [inBinOf_iff]
  rw [hcol, hN]
  exact effectiveArea_fin _ _ _ (hpos i)

/-- an entry of the migration matrix times the events of its row is the count of the cell -/
theorem migration_count {n m k : ℕ} (events : List RecoEvent) (trueBins : Fin (n + 1) → FV ℝ) (ht : IncEdges trueBins)
    (recoBins : Fin (m + 1) → FV ℝ) (hr : IncEdges recoBins) (fovBins : Fin (k + 1) → FV ℝ) (hf : IncEdges fovBins) (hm : 0 < m) :
    ∃ M : Fin n → Fin m → Fin k → ℝ, energyMigrationMatrix events trueBins recoBins fovBins = .ok (fun i a j => .fin (M i a j)) ∧
      (∀ i a j, M i a j * (numberWhere events (fun e => (InBinOf trueBins i e.trueEnergy ∧ InBinOf fovBins j e.offset) ∧ InRangeOf recoBins e.recoEnergy) : ℝ) =
        numberWhere events (fun e => (InBinOf trueBins i e.trueEnergy ∧ InBinOf fovBins j e.offset) ∧ InBinOf recoBins a e.recoEnergy)) ∧
      ∀ i j, numberWhere events (fun e => (InBinOf trueBins i e.trueEnergy ∧ InBinOf fovBins j e.offset) ∧ InRangeOf recoBins e.recoEnergy) = 0 →
        ∀ a, M i a j = 0 := by
  obtain ⟨M, h1, -, h3⟩ := C40_migration_matrix events trueBins ht recoBins hr fovBins hf hm
  refine ⟨M, h1, fun i a j => ?_, fun i j h0 => (h3 i j).2 (fun ⟨e, he, hc⟩ => (numberWhere_eq_zero events).mp h0 e he hc)⟩
  by_cases h : ∃ e ∈ events, (InBinOf trueBins i e.trueEnergy ∧ InBinOf fovBins j e.offset) ∧ InRangeOf recoBins e.recoEnergy
  · exact ((h3 i j).1 h).2 a
  · rw [(h3 i j).2 h a, zero_mul]
    rw [(numberWhere_eq_zero events).mpr (fun e he hc => h ⟨e, he, hc.1, (inBinOf_range hr hm _).mp ⟨a, hc.2⟩⟩), Nat.cast_zero]

/-! ## C120 -/

/-- **C120** Effective area per energy: where showers were simulated, the areas of two event lists add up to the area of the joined list. -/
theorem C120_effective_area (t1 t2 : EventTable ℝ) (hp : t1.hasParticle = t2.hasParticle) (w : Bool) (s : Info) {n : ℕ} (bins : Fin (n + 1) → FV ℝ)
    (hb : IncEdges bins) (hc : t1.hasParticle = true → "weighted" ∉ particles (t1.rows ++ t2.rows)) (N : Fin n → ℝ)
    (hN : ∀ i, nShowersPerEnergy s bins i = .fin (N i)) (hpos : ∀ i, N i ≠ 0) :
    ∃ A1 A2 : Fin n → ℝ, effectiveAreaPerEnergy t1 s bins = .ok (fun i => .fin (A1 i)) ∧
      effectiveAreaPerEnergy t2 s bins = .ok (fun i => .fin (A2 i)) ∧
      effectiveAreaPerEnergy ⟨w, t1.hasParticle, t1.rows ++ t2.rows⟩ s bins = .ok fun i => .fin (A1 i + A2 i) := by
  refine ⟨_, _, area1d_eq t1 s bins hb ?_ N hN hpos, area1d_eq t2 s bins hb ?_ N hN hpos, ?_⟩
  · intro h hm
    refine hc h ?_
    simp only [particles, List.map_append, List.mem_append] at *
    exact Or.inl hm
  · intro h hm
    refine hc (hp.trans h) ?_
    simp only [particles, List.map_append, List.mem_append] at *
    exact Or.inr hm
  · rw [area1d_eq ⟨w, t1.hasParticle, t1.rows ++ t2.rows⟩ s bins hb hc N hN hpos]
    congr 1
    funext i
    rw [numberWhere_append]
    congr 1
    push_cast
    ring

/-- **C120** Effective area in energy, offset and position angle. -/
theorem C120_effective_area_polar (e1 e2 : List TrueEvent) (s : Info) {n m k : ℕ} (bins : Fin (n + 1) → FV ℝ) (hb : IncEdges bins)
    (fov : Fin (m + 1) → ℝ) (hf : Monotone fov) (pa : Fin (k + 1) → ℝ) (hpa : Monotone pa) (N : Fin n → Fin m → Fin k → ℝ)
    (hN : nShowers3dPolar s bins fov pa = .ok fun i j l => .fin (N i j l)) (hpos : ∀ i j l, N i j l ≠ 0) :
    ∃ A1 A2 : Fin n → Fin m → Fin k → ℝ, effectiveArea3dPolar e1 s bins fov pa = .ok (fun i j l => .fin (A1 i j l)) ∧
      effectiveArea3dPolar e2 s bins fov pa = .ok (fun i j l => .fin (A2 i j l)) ∧
      effectiveArea3dPolar (e1 ++ e2) s bins fov pa = .ok fun i j l => .fin (A1 i j l + A2 i j l) := by
  refine ⟨_, _, areaPolar_eq e1 s bins hb fov hf pa hpa N hN hpos, areaPolar_eq e2 s bins hb fov hf pa hpa N hN hpos, ?_⟩
  rw [areaPolar_eq (e1 ++ e2) s bins hb fov hf pa hpa N hN hpos]
  congr 1
  funext i j l
  rw [numberWhere_append]
  congr 1
  push_cast
  ring

/-- **C120** Effective area in energy, longitude and latitude, for as many longitude as latitude bins (other numbers: C88). -/
theorem C120_effective_area_lonlat (e1 e2 : List TrueEvent) (s : Info) {n p : ℕ} (bins : Fin (n + 1) → FV ℝ) (hb : IncEdges bins)
    (g : Simulations.Grid p p) (hlon : Monotone g.lon) (hlat : Monotone g.lat) (S : ℕ) (N : Fin n → Fin p → Fin p → ℝ)
    (hN : nShowers3dLonlat s bins g S = .ok fun i j l => .fin (N i j l)) (hpos : ∀ i j l, N i j l ≠ 0) :
    ∃ A1 A2 A : Arr3 (FV ℝ), effectiveArea3dLonlat e1 s bins g S = .ok A1 ∧ effectiveArea3dLonlat e2 s bins g S = .ok A2 ∧
      effectiveArea3dLonlat (e1 ++ e2) s bins g S = .ok A ∧ A1.shape = (n, p, p) ∧ A2.shape = (n, p, p) ∧ A.shape = (n, p, p) ∧
      ∀ (e : Fin n) (i j : Fin p), ∃ x y : ℝ, A1.val e i j = .fin x ∧ A2.val e i j = .fin y ∧ A.val e i j = .fin (x + y) := by
  obtain ⟨A1, a1, a2, a3⟩ := lonlat_square e1 s bins hb g hlon hlat S _ hN
  obtain ⟨A2, b1, b2, b3⟩ := lonlat_square e2 s bins hb g hlon hlat S _ hN
  obtain ⟨A, c1, c2, c3⟩ := lonlat_square (e1 ++ e2) s bins hb g hlon hlat S _ hN
  refine ⟨A1, A2, A, a1, b1, c1, a2, b2, c2, fun e i j => ⟨_, _, (a3 e i j).trans (effectiveArea_fin _ _ _ (hpos e i j)),
    (b3 e i j).trans (effectiveArea_fin _ _ _ (hpos e i j)), ?_⟩⟩
  rw [c3, effectiveArea_fin _ _ _ (hpos e i j), numberWhere_append]
  congr 1
  push_cast
  ring

/-- **C120** The energy migration matrix of a joined list is the mean of the two matrices, weighted with the numbers of events in the bin. -/
theorem C120_migration_mixture {n m k : ℕ} (e1 e2 : List RecoEvent) (trueBins : Fin (n + 1) → FV ℝ) (ht : IncEdges trueBins)
    (recoBins : Fin (m + 1) → FV ℝ) (hr : IncEdges recoBins) (fovBins : Fin (k + 1) → FV ℝ) (hf : IncEdges fovBins) (hm : 0 < m) :
    ∃ M1 M2 M : Fin n → Fin m → Fin k → ℝ,
      energyMigrationMatrix e1 trueBins recoBins fovBins = .ok (fun i a j => .fin (M1 i a j)) ∧
      energyMigrationMatrix e2 trueBins recoBins fovBins = .ok (fun i a j => .fin (M2 i a j)) ∧
      energyMigrationMatrix (e1 ++ e2) trueBins recoBins fovBins = .ok (fun i a j => .fin (M i a j)) ∧
      ∀ i a j,
        let N := fun l : List RecoEvent => (numberWhere l (fun e => (InBinOf trueBins i e.trueEnergy ∧ InBinOf fovBins j e.offset) ∧
          InRangeOf recoBins e.recoEnergy) : ℝ)
        M i a j * (N e1 + N e2) = M1 i a j * N e1 + M2 i a j * N e2 := by
  obtain ⟨M1, a1, a2, -⟩ := migration_count e1 trueBins ht recoBins hr fovBins hf hm
  obtain ⟨M2, b1, b2, -⟩ := migration_count e2 trueBins ht recoBins hr fovBins hf hm
  obtain ⟨M, c1, c2, -⟩ := migration_count (e1 ++ e2) trueBins ht recoBins hr fovBins hf hm
  refine ⟨M1, M2, M, a1, b1, c1, fun i a j => ?_⟩
  have h1 := a2 i a j
  have h2 := b2 i a j
  have h3 := c2 i a j
  rw [numberWhere_append, numberWhere_append] at h3
  push_cast at h3
  show M i a j * (_ + _) = M1 i a j * _ + M2 i a j * _
  rw [h1, h2, h3]

/-! ## C121 -/

/-- **C121** Energy migration matrix with any of its axes merged: entry × number of events (in the true energy and offset bin, with a reconstructed energy
inside the edges) adds up. If only reconstructed energy bins are merged and the first edge is kept, the entries themselves add up. -/
theorem C121_migration {n m k p q r : ℕ} (events : List RecoEvent) (trueBins : Fin (n + 1) → FV ℝ) (ht : IncEdges trueBins)
    (recoBins : Fin (m + 1) → FV ℝ) (hr : IncEdges recoBins) (fovBins : Fin (k + 1) → FV ℝ) (hfov : IncEdges fovBins)
    (trueBins' : Fin (p + 1) → FV ℝ) (f : Fin (p + 1) → Fin (n + 1)) (c1 : Coarsens trueBins trueBins' f)
    (recoBins' : Fin (q + 1) → FV ℝ) (g : Fin (q + 1) → Fin (m + 1)) (c2 : Coarsens recoBins recoBins' g)
    (fovBins' : Fin (r + 1) → FV ℝ) (h : Fin (r + 1) → Fin (k + 1)) (c3 : Coarsens fovBins fovBins' h) (hq : 0 < q) :
    (∃ (M : Fin n → Fin m → Fin k → ℝ) (M' : Fin p → Fin q → Fin r → ℝ),
      energyMigrationMatrix events trueBins recoBins fovBins = .ok (fun i a j => .fin (M i a j)) ∧
      energyMigrationMatrix events trueBins' recoBins' fovBins' = .ok (fun i a j => .fin (M' i a j)) ∧
      ∀ i a j, M' i a j *
          (numberWhere events (fun e => (InBinOf trueBins' i e.trueEnergy ∧ InBinOf fovBins' j e.offset) ∧ InRangeOf recoBins' e.recoEnergy) : ℝ) =
        ∑ b ∈ parts f i, ∑ c ∈ parts g a, ∑ d ∈ parts h j, M b c d *
          (numberWhere events (fun e => (InBinOf trueBins b e.trueEnergy ∧ InBinOf fovBins d e.offset) ∧ InRangeOf recoBins e.recoEnergy) : ℝ)) ∧
    (g 0 = 0 → ∃ (M : Fin n → Fin m → Fin k → ℝ) (M' : Fin n → Fin q → Fin k → ℝ),
      energyMigrationMatrix events trueBins recoBins fovBins = .ok (fun i a j => .fin (M i a j)) ∧
      energyMigrationMatrix events trueBins recoBins' fovBins = .ok (fun i a j => .fin (M' i a j)) ∧
      ∀ i a j, M' i a j = ∑ c ∈ parts g a, M i c j) := by
  have hm : 0 < m := pos_of_coarsens c2.mono hq
  obtain ⟨M, a1, a2, a3⟩ := migration_count events trueBins ht recoBins hr fovBins hfov hm
  constructor
  · obtain ⟨M', b1, b2, -⟩ := migration_count events trueBins' (c1.inc ht) recoBins' (c2.inc hr) fovBins' (c3.inc hfov) hq
    refine ⟨M, M', a1, b1, fun i a j => ?_⟩
    rw [b2]
    simp only [a2]
    exact merge_counts events (fun e => e.trueEnergy) (fun e => e.recoEnergy) (fun e => e.offset) ht c1 hr c2 hfov c3 i a j
  · intro hg
    obtain ⟨M', b1, b2, b3⟩ := migration_count events trueBins ht recoBins' (c2.inc hr) fovBins hfov hq
    refine ⟨M, M', a1, b1, fun i a j => ?_⟩
    have hrange : ∀ e : RecoEvent, InRangeOf recoBins' e.recoEnergy ↔ InRangeOf recoBins e.recoEnergy := by
      intro e
      unfold InRangeOf
      rw [c2.edge, c2.edge, hg, c2.last]
    have hNN : numberWhere events (fun e => (InBinOf trueBins i e.trueEnergy ∧ InBinOf fovBins j e.offset) ∧ InRangeOf recoBins' e.recoEnergy) =
        numberWhere events (fun e => (InBinOf trueBins i e.trueEnergy ∧ InBinOf fovBins j e.offset) ∧ InRangeOf recoBins e.recoEnergy) :=
      numberWhere_congr events fun e _ => and_congr_right fun _ => hrange e
    have hb := b2 i a j
    rw [hNN] at hb
    by_cases h0 : numberWhere events (fun e => (InBinOf trueBins i e.trueEnergy ∧ InBinOf fovBins j e.offset) ∧ InRangeOf recoBins e.recoEnergy) = 0
    · rw [b3 i j (hNN.trans h0) a, Finset.sum_eq_zero]
      intro c _
      exact a3 i j h0 c
    · apply mul_right_cancel₀ (Nat.cast_ne_zero.mpr h0 : (_ : ℝ) ≠ 0)
      rw [hb, Finset.sum_mul]
      simp only [a2]
      have := merge_counts events (fun e => e.trueEnergy) (fun e => e.recoEnergy) (fun e => e.offset) ht (Coarsens.refl trueBins) hr c2 hfov
        (Coarsens.refl fovBins) i a j
      simpa only [parts_id, Finset.sum_singleton] using this

theorem expectedShowers_merge (s : Info) (hv : Valid s) {n p : ℕ} (bins : Fin (n + 1) → FV ℝ) (hb : EnergyEdges s bins)
    (bins' : Fin (p + 1) → FV ℝ) (hb' : EnergyEdges s bins') (f : Fin (p + 1) → Fin (n + 1)) (hE : Coarsens bins bins' f) (i : Fin p) :
    expectedShowers s (bins' i.castSucc) (bins' i.succ) = ∑ b ∈ parts f i, expectedShowers s (bins b.castSucc) (bins b.succ) := by
  rw [expectedShowers_eq hv (hb'.isBin i), hE.edge, hE.edge]
  simp only [expectedShowers_eq hv (hb.isBin _), ← Finset.mul_sum]
  rw [sum_parts_sub hE.mono i (fun k => cdf s (clip s (bins k)))]

/-- **C121** Simulated showers per energy, and effective area per energy × simulated showers, add up over merged energy bins. -/
theorem C121_effective_area (t : EventTable ℝ) (hc : t.hasParticle = true → "weighted" ∉ particles t.rows) (s : Info) (hv : Valid s) {n p : ℕ}
    (bins : Fin (n + 1) → FV ℝ) (hb : EnergyEdges s bins)
    (bins' : Fin (p + 1) → FV ℝ) (hb' : EnergyEdges s bins') (f : Fin (p + 1) → Fin (n + 1)) (hE : Coarsens bins bins' f) (hp : 0 < p) :
    ∃ (N : Fin n → ℝ) (N' : Fin p → ℝ), (∀ i, nShowersPerEnergy s bins i = .fin (N i)) ∧ (∀ i, nShowersPerEnergy s bins' i = .fin (N' i)) ∧
      (∀ i, N' i = ∑ b ∈ parts f i, N b) ∧
      ((∀ i, N i ≠ 0) → ∃ (A : Fin n → ℝ) (A' : Fin p → ℝ), effectiveAreaPerEnergy t s bins = .ok (fun i => .fin (A i)) ∧
        effectiveAreaPerEnergy t s bins' = .ok (fun i => .fin (A' i)) ∧ ∀ i, A' i * N' i = ∑ b ∈ parts f i, A b * N b) := by
  have iE := incEdges_of_bins (pos_of_coarsens hE.mono hp) hb.isBin
  have hs := expectedShowers_merge s hv bins hb bins' hb' f hE
  refine ⟨_, _, fun i => C26_expected_number s hv bins i (hb.isBin i) (hb.notAll i), fun i => C26_expected_number s hv bins' i (hb'.isBin i) (hb'.notAll i), hs, ?_⟩
  intro hpos
  have hnn : ∀ i : Fin n, 0 < expectedShowers s (bins i.castSucc) (bins i.succ) := by
    intro i
    obtain ⟨x, hx, hx0, -⟩ := C27_nonneg s hv bins i (hb.isBin i) (hb.notAll i)
    rw [C26_expected_number s hv bins i (hb.isBin i) (hb.notAll i)] at hx
    cases hx
    exact lt_of_le_of_ne hx0 (hpos i).symm
  have hpos' : ∀ i : Fin p, expectedShowers s (bins' i.castSucc) (bins' i.succ) ≠ 0 := by
    intro i
    rw [hs]
    exact (Finset.sum_pos (fun b _ => hnn b) (parts_nonempty hE.mono i)).ne'
  have hA := area1d_eq t s bins iE hc _ (fun i => C26_expected_number s hv bins i (hb.isBin i) (hb.notAll i)) hpos
  have hA' := area1d_eq t s bins' (hE.inc iE) hc _ (fun i => C26_expected_number s hv bins' i (hb'.isBin i) (hb'.notAll i)) hpos'
  refine ⟨_, _, hA, hA', fun i => ?_⟩
  have e1 : ∀ (x y z : ℝ), y ≠ 0 → x / y * z * y = x * z := by intro x y z hy; field_simp
  rw [e1 _ _ _ (hpos' i)]
  simp only [e1 _ _ _ (hpos _), ← Finset.sum_mul]
  congr 1
  refine (sum_parts_number t.rows (parts f i) (fun b e => InBinOf bins b e.key) _ ?_ ?_).symm
  · intro r b b' h1 h2
    exact inBinOf_unique iE h1 h2
  · intro r
    rw [hE.inBin_iff iE]

/-! ## C119 -/

/-- **C119** Point-like analysis: with a single offset bin that holds all selected events, effective area per energy times simulated showers per area,
times the energy migration matrix, is the number of selected events in the bin of true and reconstructed energy. -/
theorem C119_fold_energy (events : List RecoEvent) (t : EventTable ℝ) (hs : t.rows.map (fun e => e.key) = events.map (fun e => e.trueEnergy))
    (hc : t.hasParticle = true → "weighted" ∉ particles t.rows) (s : Info) (hR : s.maxImpact ≠ 0) {n m : ℕ} (bins : Fin (n + 1) → FV ℝ) (hb : IncEdges bins)
    (N : Fin n → ℝ) (hN : ∀ i, nShowersPerEnergy s bins i = .fin (N i)) (hpos : ∀ i, N i ≠ 0)
    (recoBins : Fin (m + 1) → FV ℝ) (hr : IncEdges recoBins) (hm : 0 < m) (fov : Fin 2 → FV ℝ) (hf : IncEdges fov)
    (hall : ∀ e ∈ events, InBinOf fov 0 e.offset) (hin : ∀ e ∈ events, InRangeOf bins e.trueEnergy → InRangeOf recoBins e.recoEnergy) (hn : 0 < n) :
    ∃ (A : Fin n → ℝ) (M : Fin n → Fin m → Fin 1 → ℝ),
      effectiveAreaPerEnergy t s bins = .ok (fun i => .fin (A i)) ∧
      energyMigrationMatrix events bins recoBins fov = .ok (fun i a j => .fin (M i a j)) ∧
      (∀ i a, A i * N i / (Real.pi * s.maxImpact ^ 2) * M i a 0 =
        numberWhere events (fun e => InBinOf bins i e.trueEnergy ∧ InBinOf recoBins a e.recoEnergy)) ∧
      ∀ a, ∑ i, A i * N i / (Real.pi * s.maxImpact ^ 2) * M i a 0 =
        numberWhere events (fun e => InRangeOf bins e.trueEnergy ∧ InBinOf recoBins a e.recoEnergy) := by
  obtain ⟨M, a1, a2, a3⟩ := migration_count events bins hb recoBins hr fov hf hm
  have hA := area1d_eq t s bins hb hc N hN hpos
  have harea : Real.pi * s.maxImpact ^ 2 ≠ 0 := mul_ne_zero Real.pi_ne_zero (pow_ne_zero 2 hR)
  have hnum : ∀ i, numberWhere t.rows (fun e => InBinOf bins i e.key) = numberWhere events (fun e => InBinOf bins i e.trueEnergy) := by
    intro i
    have h1 := numberWhere_map t.rows (fun e => e.key) (fun x : FV ℝ => InBinOf bins i x)
    have h2 := numberWhere_map events (fun e => e.trueEnergy) (fun x : FV ℝ => InBinOf bins i x)
    rw [hs] at h1
    exact h1.symm.trans h2
  have hcell : ∀ i a, simulatedArea s * (numberWhere events (fun e => InBinOf bins i e.trueEnergy) : ℝ) / (Real.pi * s.maxImpact ^ 2) * M i a 0 =
      numberWhere events (fun e => InBinOf bins i e.trueEnergy ∧ InBinOf recoBins a e.recoEnergy) := by
    intro i a
    have h1 := a2 i a 0
    have e1 : numberWhere events (fun e => (InBinOf bins i e.trueEnergy ∧ InBinOf fov 0 e.offset) ∧ InRangeOf recoBins e.recoEnergy) =
        numberWhere events (fun e => InBinOf bins i e.trueEnergy) := by
      refine numberWhere_congr events fun e he => ⟨fun h => h.1.1, fun h => ⟨⟨h, hall e he⟩, hin e he ((inBinOf_range hb hn _).mp ⟨i, h⟩)⟩⟩
    have e2 : numberWhere events (fun e => (InBinOf bins i e.trueEnergy ∧ InBinOf fov 0 e.offset) ∧ InBinOf recoBins a e.recoEnergy) =
        numberWhere events (fun e => InBinOf bins i e.trueEnergy ∧ InBinOf recoBins a e.recoEnergy) := by
      refine numberWhere_congr events fun e he => ⟨fun h => ⟨h.1.1, h.2⟩, fun h => ⟨⟨h.1, hall e he⟩, h.2⟩⟩
    rw [e1, e2] at h1
    rw [← h1]
    unfold simulatedArea
    field_simp
  have hfull : ∀ i a, (numberWhere t.rows (fun e => InBinOf bins i e.key) : ℝ) / N i * simulatedArea s * N i / (Real.pi * s.maxImpact ^ 2) * M i a 0 =
      numberWhere events (fun e => InBinOf bins i e.trueEnergy ∧ InBinOf recoBins a e.recoEnergy) := by
    intro i a
    rw [← hcell i a, hnum i]
    have := hpos i
    field_simp
  refine ⟨_, M, hA, a1, hfull, fun a => ?_⟩
  simp only [hfull]
  refine sum_numberWhere events (fun i e => InBinOf bins i e.trueEnergy ∧ InBinOf recoBins a e.recoEnergy) _ ?_ ?_
  · intro r i j h1 h2
    exact inBinOf_unique hb h1.1 h2.1
  · intro r
    rw [← inBinOf_range hb hn]
    constructor
    · rintro ⟨⟨i, h1⟩, h2⟩; exact ⟨i, h1, h2⟩
    · rintro ⟨i, h1, h2⟩; exact ⟨⟨i, h1⟩, h2⟩

/-! ## Satisfiability: one energy bin of 1 to 10 TeV, a cone of 3 degrees -/

example : ∃ N : Fin 1 → ℝ, (∀ i, nShowersPerEnergy exCone ![.fin 1, .fin 10] i = .fin (N i)) ∧ (∀ i, N i ≠ 0) ∧
    (∃ N3 : Fin 1 → Fin 1 → Fin 2 → ℝ,
      nShowers3dPolar exCone ![.fin 1, .fin 10] ![0, 3 * deg] ![0, Real.pi, 2 * Real.pi] = .ok (fun i j l => .fin (N3 i j l)) ∧ ∀ i j l, N3 i j l ≠ 0) ∧
    (∀ e ∈ [(⟨.fin 2, .fin 3, .fin (1 / 2), .fin 0⟩ : RecoEvent), ⟨.fin 5, .fin 4, .fin (1 / 2), .fin 0⟩], InBinOf ![.fin 0, .fin 1] 0 e.offset) := by
  have hE : ∀ i : Fin 1, IsBin ((![.fin 1, .fin 10] : Fin 2 → FV ℝ) i.castSucc) ((![.fin 1, .fin 10] : Fin 2 → FV ℝ) i.succ) := by
    intro i; fin_cases i; exact ⟨by simp, by simp⟩
  have hc : ∀ i : Fin 1, ¬ StrictlyContainsRange exCone ((![.fin 1, .fin 10] : Fin 2 → FV ℝ) i.castSucc) ((![.fin 1, .fin 10] : Fin 2 → FV ℝ) i.succ) := by
    intro i; fin_cases i; simp [StrictlyContainsRange, exCone]
  obtain ⟨v, h1, -, h3⟩ := C30_sums exCone exCone_valid exCone_diffuse ![.fin 1, .fin 10] (![0, 3 * deg] : Fin 2 → ℝ) hE hc
    (by intro i; fin_cases i; show (0:ℝ) ≤ 3 * deg; linarith [deg_pos]) (by simp [exCone]) (by simp [exCone])
  have h4 := h3 (by simp [exCone]) (by simp [exCone, Fin.last])
  simp only [Fin.sum_univ_one] at h4
  have hv0 : v 0 0 ≠ 0 := ne_of_eq_of_ne h4 (by norm_num [exCone])
  refine ⟨_, fun i => C26_expected_number exCone exCone_valid _ i (hE i) (hc i), ?_, ?_, ?_⟩
  · intro i
    fin_cases i
    show expectedShowers exCone (.fin 1) (.fin 10) ≠ 0
    rw [expectedShowers_eq exCone_valid ⟨by simp, by simp⟩]
    have e1 : clip exCone (.fin 10) = exCone.energyMax := by
      show max _ (min 10 _) = _
      norm_num [exCone]
    have e0 : clip exCone (.fin 1) = exCone.energyMin := by
      show max _ (min 1 _) = _
      norm_num [exCone]
    rw [e1, e0, cdf_full exCone_valid, mul_one]; exact exCone_valid.showers.ne'
  · obtain ⟨u, a1, a2, -⟩ := C31_polar_sum exCone exCone_valid.showers exCone_diffuse (k := 2) (by norm_num) _ _ ![0, Real.pi, 2 * Real.pi] v h1
    refine ⟨u, a1, fun i j l => ?_⟩
    rw [a2]
    fin_cases i; fin_cases j
    exact div_ne_zero hv0 (by norm_num)
  · intro e he
    rcases List.mem_cons.mp he with rfl | he
    · exact ⟨by show FV.le (.fin 0) (.fin (1 / 2 : ℝ)) = true; simp, Or.inl (by show FV.lt (.fin (1 / 2 : ℝ)) (.fin 1) = true; simp; norm_num)⟩
    · rw [List.mem_singleton] at he
      subst he
      exact ⟨by show FV.le (.fin 0) (.fin (1 / 2 : ℝ)) = true; simp, Or.inl (by show FV.lt (.fin (1 / 2 : ℝ)) (.fin 1) = true; simp; norm_num)⟩

end Pyirf.Pipeline
