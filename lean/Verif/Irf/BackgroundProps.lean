import Verif.Irf.DensityProps
import Mathlib.Analysis.Real.Pi.Bounds

/-!
# Background rates (C42, C43)
-/
set_option linter.unusedSectionVars false
set_option linter.unusedSimpArgs false

namespace Pyirf.Irf
open Pyirf Pyirf.Np Pyirf.Utils Pyirf.Simulations Pyirf.Binning

/-! ## Specification -/

/-- Summed weight of the events with a property. -/
noncomputable def weightWhere (events : List BackgroundEvent) (P : BackgroundEvent → Prop) [DecidablePred P] : ℝ :=
  sumWhere events P (fun e => e.weight)

/-- Solid angle between two longitudes and two latitudes (C69). -/
noncomputable def cellSolidAngle (lonLow lonHigh latLow latHigh : ℝ) : ℝ := (lonHigh - lonLow) * (Real.sin latHigh - Real.sin latLow)

/-! ## C42 -/

/-- **C42** Every entry of the background rate times the energy width, the solid angle of the ring and the observation time is the summed
weight of the events in the cell; summed over the cells, it is the summed weight of all events inside the binning. -/
theorem C42_background_2d {n m : ℕ} (events : List BackgroundEvent) (energy : Fin (n + 1) → ℝ) (he : StrictMono energy)
    (off : Fin (m + 1) → ℝ) (hoff : StrictMono off) (h0 : 0 ≤ off 0) (hpi : off (Fin.last m) ≤ Real.pi) (tObs : ℝ) (ht : 0 < tObs)
    (hn : 0 < n) (hm : 0 < m) :
    ∃ d : Fin n → Fin m → ℝ, background2d events (finEdges energy) off tObs = .ok (fun i j => .fin (d i j)) ∧
      (∀ i j, d i j * (energy i.succ - energy i.castSucc) * (2 * Real.pi * (Real.cos (off j.castSucc) - Real.cos (off j.succ))) * tObs =
        weightWhere events (fun e => InBinOf (finEdges energy) i e.energy ∧ InBinOf (finEdges off) j e.offset)) ∧
      ∑ i, ∑ j, d i j * (energy i.succ - energy i.castSucc) *
          (2 * Real.pi * (Real.cos (off j.castSucc) - Real.cos (off j.succ))) * tObs =
        weightWhere events (fun e => InRangeOf (finEdges energy) e.energy ∧ InRangeOf (finEdges off) e.offset) := by
  have hE : IncEdges (finEdges energy) := incEdges_fin he.monotone
  have hO : IncEdges (finEdges off) := incEdges_fin hoff.monotone
  have hw : ∀ i : Fin n, 0 < energy i.succ - energy i.castSucc := fun i => sub_pos.mpr (he Fin.castSucc_lt_succ)
  have hs := ring_pos hoff h0 hpi
  have hwe : ∀ a : Fin m, 2 * Real.pi * (Real.cos (off a.castSucc) - Real.cos (off a.succ)) =
      coneSolidAngle (off a.succ) - coneSolidAngle (off a.castSucc) := fun a => by unfold coneSolidAngle; ring
  let c := fun i j => weightWhere events (fun e => InBinOf (finEdges energy) i e.energy ∧ InBinOf (finEdges off) j e.offset)
  have key : ∀ i j, c i j / (energy i.succ - energy i.castSucc) / tObs / (coneSolidAngle (off j.succ) - coneSolidAngle (off j.castSucc)) *
      (energy i.succ - energy i.castSucc) * (coneSolidAngle (off j.succ) - coneSolidAngle (off j.castSucc)) * tObs = c i j := by
    intro i j
    have := (hw i).ne'
    have := (hs j).ne'
    have := ht.ne'
    field_simp
  simp only [hwe]
  refine ⟨fun i j => c i j / (energy i.succ - energy i.castSucc) / tObs / (coneSolidAngle (off j.succ) - coneSolidAngle (off j.castSucc)),
    ?_, key, ?_⟩
  · unfold background2d
    simp only [histogram2d_ok hE hO]
    congr 1
    funext i j
    rw [sumWhere_map, show finEdges energy i.succ - finEdges energy i.castSucc = .fin (energy i.succ - energy i.castSucc) from FV.fin_sub_fin _ _,
      FV.fin_div_fin _ _ (hw i).ne', FV.fin_div_fin _ _ ht.ne', FV.fin_div_fin _ _ (hs j).ne']
    rfl
  · simp only [key]
    have : ∑ i, ∑ j, c i j = ∑ p : Fin n × Fin m, c p.1 p.2 := by rw [Fintype.sum_prod_type]
    rw [this]
    apply sum_sumWhere
    · rintro r ⟨i, j⟩ ⟨i', j'⟩ ⟨h1, h2⟩ ⟨h3, h4⟩
      exact Prod.ext (inBinOf_unique hE h1 h3) (inBinOf_unique hO h2 h4)
    · intro r
      rw [← inBinOf_range hE hn, ← inBinOf_range hO hm]
      constructor
      · rintro ⟨⟨i, h1⟩, ⟨j, h2⟩⟩; exact ⟨(i, j), h1, h2⟩
      · rintro ⟨⟨i, j⟩, h1, h2⟩; exact ⟨⟨i, h1⟩, ⟨j, h2⟩⟩

/-- **C42** (overflow bins) The same cell by cell for energy edges that may be infinite (as after `add_overflow_bins`): in the bins with finite edges the rate integrates to the
summed weight; in a bin that reaches to infinity the rate is 0, so the events in it are lost. -/
theorem C42_overflow_bins {n m : ℕ} (events : List BackgroundEvent) (energy : Fin (n + 1) → FV ℝ) (hE : IncEdges energy)
    (off : Fin (m + 1) → ℝ) (hoff : StrictMono off) (h0 : 0 ≤ off 0) (hpi : off (Fin.last m) ≤ Real.pi) (tObs : ℝ) (ht : 0 < tObs) :
    ∃ b : Fin n → Fin m → FV ℝ, background2d events energy off tObs = .ok b ∧ ∀ (i : Fin n) (j : Fin m),
      (∀ lo hi : ℝ, energy i.castSucc = .fin lo → energy i.succ = .fin hi → lo < hi → ∃ d, b i j = .fin d ∧
        d * (hi - lo) * (2 * Real.pi * (Real.cos (off j.castSucc) - Real.cos (off j.succ))) * tObs =
          weightWhere events (fun e => InBinOf energy i e.energy ∧ InBinOf (finEdges off) j e.offset)) ∧
      (∀ lo : ℝ, energy i.castSucc = .fin lo → energy i.succ = .pinf → b i j = .fin 0) := by
  have hO : IncEdges (finEdges off) := incEdges_fin hoff.monotone
  have hs := ring_pos hoff h0 hpi
  unfold background2d
  simp only [histogram2d_ok hE hO]
  refine ⟨_, rfl, fun i j => ⟨?_, ?_⟩⟩
  · intro lo hi e1 e2 hlt
    have hw : hi - lo ≠ 0 := (sub_pos.mpr hlt).ne'
    refine ⟨weightWhere events (fun e => InBinOf energy i e.energy ∧ InBinOf (finEdges off) j e.offset) / (hi - lo) / tObs /
      (coneSolidAngle (off j.succ) - coneSolidAngle (off j.castSucc)), ?_, ?_⟩
    · rw [e1, e2, FV.fin_sub_fin, FV.fin_div_fin _ _ hw, FV.fin_div_fin _ _ ht.ne', FV.fin_div_fin _ _ (hs j).ne', sumWhere_map]
      rfl
    · have hwe : 2 * Real.pi * (Real.cos (off j.castSucc) - Real.cos (off j.succ)) =
        coneSolidAngle (off j.succ) - coneSolidAngle (off j.castSucc) := by unfold coneSolidAngle; ring
      rw [hwe]
      have := (hs j).ne'
      have := ht.ne'
      field_simp
  · intro lo e1 e2
    have hd : ∀ x : ℝ, FV.fin x / (FV.pinf - FV.fin lo) = FV.fin 0 := fun x => rfl
    rw [e1, e2, hd, FV.fin_div_fin _ _ ht.ne', FV.fin_div_fin _ _ (hs j).ne', zero_div, zero_div]

/-! ## C43 -/

/-- The result of the code, in terms of the event weights. -/
theorem background3d_eq {n p q : ℕ} (events : List BackgroundEvent) (energy : Fin (n + 1) → ℝ) (he : StrictMono energy)
    (lon : Fin (p + 1) → ℝ) (hlon : Monotone lon) (lat : Fin (q + 1) → ℝ) (hlat : Monotone lat) (tObs : ℝ) (ht : 0 < tObs) :
    background3dLonlat events (finEdges energy) lon lat tObs =
      match bcastLen p q with
      | none => .error .valueError
      | some r => broadcast3 (fun x y => x / FV.fin y)
          (Arr3.ofFn FV.nan fun i j l => .fin (weightWhere events (fun e => InBinOf (finEdges energy) i e.energy ∧
            InBinOf (finEdges lon) j e.lon ∧ InBinOf (finEdges lat) l e.lat) / (energy i.succ - energy i.castSucc) / tObs))
          ⟨(1, 1, r), fun _ _ l => cellSolidAngle (if h : bcastIdx p l < p + 1 then lon ⟨bcastIdx p l, h⟩ else 0)
            (if h : bcastIdx p l + 1 < p + 1 then lon ⟨bcastIdx p l + 1, h⟩ else 0)
            (if h : bcastIdx q l < q + 1 then lat ⟨bcastIdx q l, h⟩ else 0)
            (if h : bcastIdx q l + 1 < q + 1 then lat ⟨bcastIdx q l + 1, h⟩ else 0)⟩ := by
  have hE : IncEdges (finEdges energy) := incEdges_fin he.monotone
  have hw : ∀ i : Fin n, 0 < energy i.succ - energy i.castSucc := fun i => sub_pos.mpr (he Fin.castSucc_lt_succ)
  unfold background3dLonlat
  simp only [histogram3d_ok hE (show IncEdges (finEdges lon) from incEdges_fin hlon) (show IncEdges (finEdges lat) from incEdges_fin hlat)]
  have : ∀ (i : Fin n) (j : Fin p) (l : Fin q), (FV.fin (sumWhere (events.map fun e => (e.energy, e.lon, e.lat, e.weight))
      (fun r => InBinOf (finEdges energy) i r.1 ∧ InBinOf (finEdges lon) j r.2.1 ∧ InBinOf (finEdges lat) l r.2.2.1) (fun r => r.2.2.2)) /
        (finEdges energy i.succ - finEdges energy i.castSucc) / .fin tObs : FV ℝ) =
      .fin (weightWhere events (fun e => InBinOf (finEdges energy) i e.energy ∧
            InBinOf (finEdges lon) j e.lon ∧ InBinOf (finEdges lat) l e.lat) / (energy i.succ - energy i.castSucc) / tObs) := by
    intro i j l
    rw [sumWhere_map, show finEdges energy i.succ - finEdges energy i.castSucc = .fin (energy i.succ - energy i.castSucc) from FV.fin_sub_fin _ _,
      FV.fin_div_fin _ _ (hw i).ne', FV.fin_div_fin _ _ ht.ne']
    rfl
  simp only [this]
  cases bcastLen p q with
  | none => rfl
  | some r =>
    simp only []
    rfl

theorem bcastIdx_val {m : ℕ} (x : Fin m) : bcastIdx m x = x := by
  unfold bcastIdx
  split_ifs with h
  · omega
  · rfl

/-- With equally many longitude and latitude bins the entry is the weight over the solid angle for the *latitude bin's index*. -/
theorem background3d_square {n p : ℕ} (events : List BackgroundEvent) (energy : Fin (n + 1) → ℝ) (he : StrictMono energy)
    (lon : Fin (p + 1) → ℝ) (hlon : Monotone lon) (lat : Fin (p + 1) → ℝ) (hlat : Monotone lat) (tObs : ℝ) (ht : 0 < tObs) :
    ∃ a, background3dLonlat events (finEdges energy) lon lat tObs = .ok a ∧ (0 < n → 0 < p → a.shape = (n, p, p)) ∧ ∀ (i : Fin n) (j l : Fin p),
      a.val i j l = FV.fin (weightWhere events (fun e => InBinOf (finEdges energy) i e.energy ∧
            InBinOf (finEdges lon) j e.lon ∧ InBinOf (finEdges lat) l e.lat) / (energy i.succ - energy i.castSucc) / tObs) /
        .fin (cellSolidAngle (lon l.castSucc) (lon l.succ) (lat l.castSucc) (lat l.succ)) := by
  rw [background3d_eq events energy he lon hlon lat hlat tObs ht]
  have hb : ∀ x : ℕ, ∃ y, bcastLen x 1 = some y ∧ (0 < x → y = x) := by
    intro x
    unfold bcastLen
    by_cases h : x = 1
    · exact ⟨x, by simp [h], fun _ => rfl⟩
    · exact ⟨x, by simp [h], fun _ => rfl⟩
  have hpp : bcastLen p p = some p := by simp [bcastLen]
  rw [hpp]
  simp only []
  unfold broadcast3 Arr3.ofFn
  simp only []
  obtain ⟨y1, e1, hy1⟩ := hb n
  obtain ⟨y2, e2, hy2⟩ := hb p
  rw [e1, e2, hpp]
  refine ⟨_, rfl, fun hn hp => by simp only [hy1 hn, hy2 hp], ?_⟩
  intro i j l
  simp only [bcastIdx_val]
  rw [dif_pos ⟨i.2, j.2, l.2⟩, dif_pos (by omega), dif_pos (by omega), dif_pos (by omega), dif_pos (by omega)]
  rfl

/-- **C43** The call raises ValueError exactly if the numbers of longitude and latitude bins differ and neither is 1. -/
theorem C43_error_iff {n p q : ℕ} (events : List BackgroundEvent) (energy : Fin (n + 1) → ℝ) (he : StrictMono energy) (lon : Fin (p + 1) → ℝ)
    (hlon : Monotone lon) (lat : Fin (q + 1) → ℝ) (hlat : Monotone lat) (tObs : ℝ) (ht : 0 < tObs) :
    (background3dLonlat events (finEdges energy) lon lat tObs = .error .valueError ↔ p ≠ q ∧ p ≠ 1 ∧ q ≠ 1) ∧
    ((∃ a, background3dLonlat events (finEdges energy) lon lat tObs = .ok a) ↔ p = q ∨ p = 1 ∨ q = 1) := by
  have key : if p = q ∨ p = 1 ∨ q = 1 then ∃ a, background3dLonlat events (finEdges energy) lon lat tObs = .ok a
      else background3dLonlat events (finEdges energy) lon lat tObs = .error .valueError := by
    rw [background3d_eq events energy he lon hlon lat hlat tObs ht]
    have h1 : ∀ x : ℕ, bcastLen x 1 = some x := by
      intro x
      by_cases h : x = 1
      · simp [bcastLen, h]
      · simp [bcastLen, h]
    have h1' : ∀ x : ℕ, bcastLen 1 x = some x := by
      intro x
      by_cases h : 1 = x
      · simp [bcastLen, ← h]
      · simp [bcastLen, h]
    have h2 : ∀ x : ℕ, bcastLen x x = some x := fun x => by simp [bcastLen]
    split_ifs with h
    · rcases h with rfl | rfl | rfl
      · rw [h2]
        unfold broadcast3 Arr3.ofFn
        simp only [h1, h2]
        exact ⟨_, rfl⟩
      · rw [h1']
        unfold broadcast3 Arr3.ofFn
        simp only [h1, h2]
        exact ⟨_, rfl⟩
      · rw [h1]
        unfold broadcast3 Arr3.ofFn
        simp only [h1, h1']
        exact ⟨_, rfl⟩
    · push Not at h
      have : bcastLen p q = none := by simp [bcastLen, h.1, h.2.1, h.2.2]
      rw [this]
  by_cases h : p = q ∨ p = 1 ∨ q = 1
  · rw [if_pos h] at key
    obtain ⟨a, ha⟩ := key
    exact ⟨⟨fun h' => (by rw [ha] at h'; cases h'), fun h' => absurd h (by tauto)⟩, fun _ => h, fun _ => ⟨a, ha⟩⟩
  · rw [if_neg h] at key
    exact ⟨⟨fun _ => (by tauto), fun _ => key⟩, fun ⟨a, ha⟩ => (by rw [ha] at key; cases key), fun h' => absurd h' h⟩

/-- **C43** Every entry of a call that succeeds: the array has the shape (energy bins, longitude bins, larger of the two numbers of bins); entry
`(i, j, l)` is the summed weight of the events of energy bin `i`, longitude bin `j` and latitude bin `l`, divided by the energy width, the time
and the solid angle of *longitude bin `l`* and latitude bin `l` (where a single bin serves for every `l`). -/
theorem C43_entries {n p q : ℕ} (events : List BackgroundEvent) (energy : Fin (n + 1) → ℝ) (he : StrictMono energy)
    (lon : Fin (p + 1) → ℝ) (lat : Fin (q + 1) → ℝ) (hlon : StrictMono lon) (hlat : StrictMono lat) (hb : ∀ l, |lat l| ≤ Real.pi / 2)
    (tObs : ℝ) (ht : 0 < tObs) (hn : 0 < n) (hp : 0 < p) (hq : 0 < q) (a : Arr3 (FV ℝ))
    (ha : background3dLonlat events (finEdges energy) lon lat tObs = .ok a) :
    a.shape = (n, p, max p q) ∧
    ∀ (i : Fin n) (j : Fin p) (l : ℕ) (lLon : Fin p) (lLat : Fin q), l < max p q → ((lLon : ℕ) = l ∨ p = 1) → ((lLat : ℕ) = l ∨ q = 1) →
      ∃ d : ℝ, a.val i j l = .fin d ∧
        d * (energy i.succ - energy i.castSucc) *
            cellSolidAngle (lon lLon.castSucc) (lon lLon.succ) (lat lLat.castSucc) (lat lLat.succ) * tObs =
          weightWhere events (fun e => InBinOf (finEdges energy) i e.energy ∧
            InBinOf (finEdges lon) j e.lon ∧ InBinOf (finEdges lat) lLat e.lat) := by
  have h1 : ∀ x : ℕ, bcastLen x 1 = some x := by
    intro x
    by_cases h : x = 1
    · simp [bcastLen, h]
    · simp [bcastLen, h]
  have h1' : ∀ x : ℕ, bcastLen 1 x = some x := by
    intro x
    by_cases h : 1 = x
    · simp [bcastLen, ← h]
    · simp [bcastLen, h]
  have h2 : ∀ x : ℕ, bcastLen x x = some x := fun x => by simp [bcastLen]
  have hcase := (C43_error_iff events energy he lon hlon.monotone lat hlat.monotone tObs ht).2.mp ⟨a, ha⟩
  have hr : bcastLen p q = some (max p q) ∧ bcastLen q (max p q) = some (max p q) := by
    rcases hcase with rfl | rfl | rfl
    · simp [h2]
    · rw [max_eq_right hq]; simp [h1', h2]
    · rw [max_eq_left hp]; simp [h1, h1']
  rw [background3d_eq events energy he lon hlon.monotone lat hlat.monotone tObs ht, hr.1] at ha
  simp only [] at ha
  unfold broadcast3 Arr3.ofFn at ha
  simp only [h1, hr.2] at ha
  injection ha with ha
  subst ha
  refine ⟨rfl, ?_⟩
  intro i j l lLon lLat hl hlo hla
  have hpos : 0 < cellSolidAngle (lon lLon.castSucc) (lon lLon.succ) (lat lLat.castSucc) (lat lLat.succ) := by
    apply mul_pos (sub_pos.mpr (hlon Fin.castSucc_lt_succ))
    exact sub_pos.mpr (Real.sin_lt_sin_of_lt_of_le_pi_div_two (abs_le.mp (hb _)).1 (abs_le.mp (hb _)).2 (hlat Fin.castSucc_lt_succ))
  have e1 : bcastIdx p l = lLon := by
    unfold bcastIdx
    have := lLon.2
    split_ifs with h
    · omega
    · rcases hlo with h' | h'
      · exact h'.symm
      · omega
  have e2 : bcastIdx q l = lLat := by
    unfold bcastIdx
    have := lLat.2
    split_ifs with h
    · omega
    · rcases hla with h' | h'
      · exact h'.symm
      · omega
  have e3 : bcastIdx (max p q) l = l := by
    unfold bcastIdx
    split_ifs with h
    · omega
    · rfl
  refine ⟨weightWhere events (fun e => InBinOf (finEdges energy) i e.energy ∧
            InBinOf (finEdges lon) j e.lon ∧ InBinOf (finEdges lat) lLat e.lat) / (energy i.succ - energy i.castSucc) / tObs /
        cellSolidAngle (lon lLon.castSucc) (lon lLon.succ) (lat lLat.castSucc) (lat lLat.succ), ?_, ?_⟩
  · simp only [bcastIdx_val, e1, e2, e3]
    rw [dif_pos ⟨i.2, j.2, lLat.2⟩, dif_pos (by omega), dif_pos (by omega), dif_pos (by omega), dif_pos (by omega)]
    exact FV.fin_div_fin _ _ hpos.ne'
  · have := hpos.ne'
    have := (sub_pos.mpr (he (Fin.castSucc_lt_succ (i := i)))).ne'
    have := ht.ne'
    field_simp

/-- **C43** With equally many longitude and latitude bins, the entries integrate back to the weights, for all events, exactly if all
longitude bins have the same width. -/
theorem C43_integrates_iff {n p : ℕ} (energy : Fin (n + 1) → ℝ) (he : StrictMono energy)
    (lon lat : Fin (p + 1) → ℝ) (hlon : StrictMono lon) (hlat : StrictMono lat) (hb : ∀ l, |lat l| ≤ Real.pi / 2) (tObs : ℝ) (ht : 0 < tObs)
    (hn : 0 < n) (hp : 0 < p) :
    (∀ (events : List BackgroundEvent) (a : Arr3 (FV ℝ)), background3dLonlat events (finEdges energy) lon lat tObs = .ok a →
      ∀ (i : Fin n) (j l : Fin p), ∃ d : ℝ, a.val i j l = .fin d ∧
        d * (energy i.succ - energy i.castSucc) * cellSolidAngle (lon j.castSucc) (lon j.succ) (lat l.castSucc) (lat l.succ) * tObs =
          weightWhere events (fun e => InBinOf (finEdges energy) i e.energy ∧
            InBinOf (finEdges lon) j e.lon ∧ InBinOf (finEdges lat) l e.lat)) ↔
    ∀ j l : Fin p, lon j.succ - lon j.castSucc = lon l.succ - lon l.castSucc := by
  constructor
  · intro h j l
    let i : Fin n := ⟨0, hn⟩
    let ev : BackgroundEvent := ⟨.fin (energy i.castSucc), .nan, .fin (lon j.castSucc), .fin (lat l.castSucc), 1⟩
    have hw : weightWhere [ev] (fun e => InBinOf (finEdges energy) i e.energy ∧
            InBinOf (finEdges lon) j e.lon ∧ InBinOf (finEdges lat) l e.lat) = 1 := by
      have hin : ∀ {m : ℕ} (ed : Fin (m + 1) → ℝ) (_ : StrictMono ed) (x : Fin m), InBinOf (finEdges ed) x (.fin (ed x.castSucc)) :=
        fun ed hed x => ⟨decide_eq_true le_rfl, Or.inl (decide_eq_true (hed Fin.castSucc_lt_succ))⟩
      have : InBinOf (finEdges energy) i ev.energy ∧ InBinOf (finEdges lon) j ev.lon ∧ InBinOf (finEdges lat) l ev.lat :=
        ⟨hin energy he i, hin lon hlon j, hin lat hlat l⟩
      unfold weightWhere sumWhere
      rw [List.filter_cons_of_pos (by simpa using this)]
      simp [ev]
    obtain ⟨a, ha⟩ := (C43_error_iff [ev] energy he lon hlon.monotone lat hlat.monotone tObs ht).2.mpr (Or.inl rfl)
    obtain ⟨d, hd, hd2⟩ := h [ev] a ha i j l
    obtain ⟨d', hd', hd2'⟩ := (C43_entries [ev] energy he lon lat hlon hlat hb tObs ht hn hp hp a ha).2 i j l l l
      (by rw [max_self]; exact l.2) (Or.inl rfl) (Or.inl rfl)
    have hdd : d = d' := FV.fin.inj (hd.symm.trans hd')
    subst hdd
    rw [hw] at hd2 hd2'
    have hne : d ≠ 0 := by rintro rfl; simp at hd2
    have hE := (sub_pos.mpr (he (Fin.castSucc_lt_succ (i := i)))).ne'
    have heq : cellSolidAngle (lon j.castSucc) (lon j.succ) (lat l.castSucc) (lat l.succ) =
        cellSolidAngle (lon l.castSucc) (lon l.succ) (lat l.castSucc) (lat l.succ) := by
      have := hd2.trans hd2'.symm
      have := mul_right_cancel₀ ht.ne' this
      exact mul_left_cancel₀ (mul_ne_zero hne hE) this
    unfold cellSolidAngle at heq
    exact mul_right_cancel₀ (sub_pos.mpr (Real.sin_lt_sin_of_lt_of_le_pi_div_two (abs_le.mp (hb _)).1 (abs_le.mp (hb _)).2
      (hlat Fin.castSucc_lt_succ))).ne' heq
  · intro hu events a ha i j l
    obtain ⟨d, hd, hd2⟩ := (C43_entries events energy he lon lat hlon hlat hb tObs ht hn hp hp a ha).2 i j l l l
      (by rw [max_self]; exact l.2) (Or.inl rfl) (Or.inl rfl)
    refine ⟨d, hd, ?_⟩
    rw [← hd2]
    unfold cellSolidAngle
    rw [hu j l]

/-- **C43** (deviation, shape) With more than one longitude bin and a different number of latitude bins the result never has the shape (energy,
longitude, latitude): the call fails, or broadcasts the single latitude bin. -/
theorem C43_shape_deviates {n p q : ℕ} (events : List BackgroundEvent) (energy : Fin (n + 1) → ℝ) (lon : Fin (p + 1) → ℝ)
    (lat : Fin (q + 1) → ℝ) (tObs : ℝ) (hp : p ≠ 1) (hpq : p ≠ q) :
    ¬ ∃ a, background3dLonlat events (finEdges energy) lon lat tObs = .ok a ∧ a.shape = (n, p, q) := by
  rintro ⟨a, h1, h2⟩
  unfold background3dLonlat at h1
  split at h1
  · cases h1
  · simp only [] at h1
    by_cases hq : q = 1
    · subst hq
      have e1 : bcastLen p 1 = some p := by simp [bcastLen, hp]
      have e2 : bcastLen 1 p = some p := by simp [bcastLen, Ne.symm hp]
      rw [e1] at h1
      simp only [] at h1
      unfold broadcast3 Arr3.ofFn at h1
      simp only [e1, e2] at h1
      split at h1
      · rename_i k1 k2 k3
        injection h1 with h1
        rw [← h1] at h2
        simp only [Prod.mk.injEq] at h2
        have := Option.some.inj k3
        omega
      · cases h1
    · have : bcastLen p q = none := by simp [bcastLen, hpq, hp, hq]
      rw [this] at h1
      cases h1

/-- **C43** (deviation, values) With longitude bins [0, 1] and [1, 3] and latitude bins [0, 1/2] and [1/2, 1] (radian), one TeV, one second and
one event of weight 1 in longitude bin 0 and latitude bin 1, the entry times its energy width, solid angle and time is 1/2. -/
theorem C43_values_deviate :
    ¬ ∀ (events : List BackgroundEvent) (energy : Fin 2 → ℝ) (_ : StrictMono energy) (lon lat : Fin 3 → ℝ) (_ : StrictMono lon)
      (_ : StrictMono lat) (_ : ∀ l, |lat l| < Real.pi / 2) (tObs : ℝ) (_ : 0 < tObs) (a : Arr3 (FV ℝ)),
      background3dLonlat events (finEdges energy) lon lat tObs = .ok a →
      ∀ j l : Fin 2, ∃ x : ℝ, a.val 0 j l = .fin x ∧
        x * (energy 1 - energy 0) * cellSolidAngle (lon j.castSucc) (lon j.succ) (lat l.castSucc) (lat l.succ) * tObs =
          weightWhere events (fun e => InBinOf (finEdges energy) 0 e.energy ∧
            InBinOf (finEdges lon) j e.lon ∧ InBinOf (finEdges lat) l e.lat) := by
  intro h
  let energy : Fin 2 → ℝ := ![0, 1]
  let lon : Fin 3 → ℝ := ![0, 1, 3]
  let lat : Fin 3 → ℝ := ![0, 1/2, 1]
  have he : StrictMono energy := by
    rw [Fin.strictMono_iff_lt_succ]; intro i; fin_cases i
    show (0:ℝ) < 1
    norm_num
  have hlon : StrictMono lon := by
    rw [Fin.strictMono_iff_lt_succ]; intro i; fin_cases i
    · show (0:ℝ) < 1
      norm_num
    · show (1:ℝ) < 3
      norm_num
  have hlat : StrictMono lat := by
    rw [Fin.strictMono_iff_lt_succ]; intro i; fin_cases i
    · show (0:ℝ) < 1/2
      norm_num
    · show (1/2:ℝ) < 1
      norm_num
  have hpi := Real.pi_gt_three
  have hb : ∀ l, |lat l| < Real.pi / 2 := by
    intro l
    have h0 : 0 ≤ lat l := hlat.monotone (Fin.zero_le l)
    have h1 : lat l ≤ 1 := hlat.monotone (Fin.le_last l)
    rw [abs_of_nonneg h0]; linarith
  let ev : BackgroundEvent := ⟨.fin (1/2), .nan, .fin (1/2), .fin (3/4), 1⟩
  obtain ⟨a, ha, -, hval⟩ := background3d_square [ev] energy he lon hlon.monotone lat hlat.monotone 1 one_pos
  have hw : weightWhere [ev] (fun e => InBinOf (finEdges energy) 0 e.energy ∧
            InBinOf (finEdges lon) 0 e.lon ∧ InBinOf (finEdges lat) 1 e.lat) = 1 := by
    have : InBinOf (finEdges energy) 0 ev.energy ∧ InBinOf (finEdges lon) 0 ev.lon ∧ InBinOf (finEdges lat) 1 ev.lat := by
      refine ⟨⟨decide_eq_true ?_, Or.inl (decide_eq_true ?_)⟩, ⟨decide_eq_true ?_, Or.inl (decide_eq_true ?_)⟩,
        ⟨decide_eq_true ?_, Or.inl (decide_eq_true ?_)⟩⟩
      · show (0:ℝ) ≤ 1/2
        norm_num
      · show (1/2:ℝ) < 1
        norm_num
      · show (0:ℝ) ≤ 1/2
        norm_num
      · show (1/2:ℝ) < 1
        norm_num
      · show (1/2:ℝ) ≤ 3/4
        norm_num
      · show (3/4:ℝ) < 1
        norm_num
    unfold weightWhere sumWhere
    rw [List.filter_cons_of_pos (by simpa using this)]
    simp [ev]
  obtain ⟨x, hx, hx2⟩ := h [ev] energy he lon lat hlon hlat hb 1 one_pos a ha 0 1
  have hv := hval 0 0 1
  simp only [Fin.val_zero, Fin.val_one] at hv hx
  have hs : 0 < Real.sin 1 - Real.sin (1/2) :=
    sub_pos.mpr (Real.sin_lt_sin_of_lt_of_le_pi_div_two (by linarith) (by linarith) (by norm_num))
  change a.val 0 0 1 = FV.fin x at hx
  change a.val 0 0 1 = _ at hv
  rw [hw, hx] at hv
  rw [hw] at hx2
  change FV.fin x = FV.fin (1 / (1 - 0) / 1) / FV.fin ((3 - 1) * (Real.sin 1 - Real.sin (1/2))) at hv
  change x * (1 - 0) * ((1 - 0) * (Real.sin 1 - Real.sin (1/2))) * 1 = 1 at hx2
  rw [FV.fin_div_fin _ _ (by positivity)] at hv
  have hv := FV.fin.inj hv
  rw [hv] at hx2
  have := hs.ne'
  field_simp at hx2
  norm_num at hx2

/-- **C43** So with equally many longitude and latitude bins, and longitude bins of equal width, each entry times its energy width,
solid angle and observation time is the summed weight in the cell. -/
theorem C43_uniform_longitude {n p : ℕ} (events : List BackgroundEvent) (energy : Fin (n + 1) → ℝ) (he : StrictMono energy)
    (lon lat : Fin (p + 1) → ℝ) (hlon : StrictMono lon) (hlat : StrictMono lat) (hb : ∀ l, |lat l| ≤ Real.pi / 2) (tObs : ℝ) (ht : 0 < tObs)
    (w : ℝ) (hu : ∀ j : Fin p, lon j.succ - lon j.castSucc = w) (hn : 0 < n) (hp : 0 < p) :
    ∃ (a : Arr3 (FV ℝ)) (d : Fin n → Fin p → Fin p → ℝ), background3dLonlat events (finEdges energy) lon lat tObs = .ok a ∧ a.shape = (n, p, p) ∧
      ∀ (i : Fin n) (j l : Fin p), a.val i j l = .fin (d i j l) ∧
        d i j l * (energy i.succ - energy i.castSucc) * cellSolidAngle (lon j.castSucc) (lon j.succ) (lat l.castSucc) (lat l.succ) * tObs =
          weightWhere events (fun e => InBinOf (finEdges energy) i e.energy ∧
            InBinOf (finEdges lon) j e.lon ∧ InBinOf (finEdges lat) l e.lat) := by
  obtain ⟨a, ha, hs, hval⟩ := background3d_square events energy he lon hlon.monotone lat hlat.monotone tObs ht
  have hc : ∀ j l : Fin p, cellSolidAngle (lon j.castSucc) (lon j.succ) (lat l.castSucc) (lat l.succ) =
      cellSolidAngle (lon l.castSucc) (lon l.succ) (lat l.castSucc) (lat l.succ) := by
    intro j l; unfold cellSolidAngle; rw [hu j, hu l]
  have hpos : ∀ l : Fin p, cellSolidAngle (lon l.castSucc) (lon l.succ) (lat l.castSucc) (lat l.succ) ≠ 0 := by
    intro l
    apply ne_of_gt
    apply mul_pos (sub_pos.mpr (hlon Fin.castSucc_lt_succ))
    exact sub_pos.mpr (Real.sin_lt_sin_of_lt_of_le_pi_div_two (abs_le.mp (hb _)).1 (abs_le.mp (hb _)).2 (hlat Fin.castSucc_lt_succ))
  refine ⟨a, fun i j l => weightWhere events (fun e => InBinOf (finEdges energy) i e.energy ∧
      InBinOf (finEdges lon) j e.lon ∧ InBinOf (finEdges lat) l e.lat) / (energy i.succ - energy i.castSucc) / tObs /
        cellSolidAngle (lon l.castSucc) (lon l.succ) (lat l.castSucc) (lat l.succ), ha, hs hn hp, fun i j l => ⟨?_, ?_⟩⟩
  · rw [hval i j l, FV.fin_div_fin _ _ (hpos l)]
  · simp only []
    rw [hc j l]
    have := hpos l
    have := (sub_pos.mpr (he (Fin.castSucc_lt_succ (i := i)))).ne'
    have := ht.ne'
    field_simp

/-- **C43** So it integrates back with a single longitude bin. -/
theorem C43_single_longitude {n q : ℕ} (events : List BackgroundEvent) (energy : Fin (n + 1) → ℝ) (he : StrictMono energy)
    (lon : Fin 2 → ℝ) (lat : Fin (q + 1) → ℝ) (hlon : StrictMono lon) (hlat : StrictMono lat) (hb : ∀ l, |lat l| ≤ Real.pi / 2) (tObs : ℝ)
    (ht : 0 < tObs) (hn : 0 < n) :
    ∃ (a : Arr3 (FV ℝ)) (d : Fin n → Fin 1 → Fin q → ℝ), background3dLonlat events (finEdges energy) lon lat tObs = .ok a ∧ a.shape = (n, 1, q) ∧
      ∀ (i : Fin n) (j : Fin 1) (l : Fin q), a.val i j l = .fin (d i j l) ∧
        d i j l * (energy i.succ - energy i.castSucc) * cellSolidAngle (lon 0) (lon 1) (lat l.castSucc) (lat l.succ) * tObs =
          weightWhere events (fun e => InBinOf (finEdges energy) i e.energy ∧
            InBinOf (finEdges lon) j e.lon ∧ InBinOf (finEdges lat) l e.lat) := by
  have hpos : ∀ l : Fin q, cellSolidAngle (lon 0) (lon 1) (lat l.castSucc) (lat l.succ) ≠ 0 := by
    intro l
    apply ne_of_gt
    apply mul_pos (sub_pos.mpr (hlon (by decide)))
    exact sub_pos.mpr (Real.sin_lt_sin_of_lt_of_le_pi_div_two (abs_le.mp (hb _)).1 (abs_le.mp (hb _)).2 (hlat Fin.castSucc_lt_succ))
  have hb1 : bcastLen 1 q = some q := by
    by_cases h : 1 = q
    · simp [bcastLen, ← h]
    · simp [bcastLen, h]
  have hb2 : bcastLen n 1 = some n := by
    by_cases h : n = 1
    · simp [bcastLen, h]
    · simp [bcastLen, h]
  have hb3 : bcastLen q q = some q := by simp [bcastLen]
  have hb4 : bcastLen 1 1 = some 1 := by simp [bcastLen]
  have hok := background3d_eq events energy he lon hlon.monotone lat hlat.monotone tObs ht
  rw [hb1] at hok
  simp only [] at hok
  unfold broadcast3 Arr3.ofFn at hok
  simp only [hb2, hb3, hb4] at hok
  refine ⟨_, fun i j l => weightWhere events (fun e => InBinOf (finEdges energy) i e.energy ∧
            InBinOf (finEdges lon) j e.lon ∧ InBinOf (finEdges lat) l e.lat) / (energy i.succ - energy i.castSucc) / tObs /
        cellSolidAngle (lon 0) (lon 1) (lat l.castSucc) (lat l.succ), hok, ?_, ?_⟩
  · rfl
  · intro i j l
    refine ⟨?_, ?_⟩
    · have hj : (j : ℕ) = 0 := by omega
      have h1 : bcastIdx 1 (l : ℕ) = 0 := rfl
      simp only [bcastIdx_val, h1]
      rw [dif_pos ⟨i.2, by simp, l.2⟩, dif_pos (by omega), dif_pos (by omega), dif_pos (by omega), dif_pos (by omega)]
      refine Eq.trans ?_ (FV.fin_div_fin _ _ (hpos l))
      rfl
    · have := hpos l
      have := (sub_pos.mpr (he (Fin.castSucc_lt_succ (i := i)))).ne'
      have := ht.ne'
      field_simp

/-- the hypotheses are satisfiable -/
example : StrictMono (![1, 2, 4] : Fin 3 → ℝ) ∧ StrictMono (![-1, 0, 1] : Fin 3 → ℝ) ∧
    (∀ j : Fin 2, (![-1, 0, 1] : Fin 3 → ℝ) j.succ - (![-1, 0, 1] : Fin 3 → ℝ) j.castSucc = 1) ∧
    ∀ l, |(![-1, 0, 1] : Fin 3 → ℝ) l| ≤ Real.pi / 2 := by
  refine ⟨?_, ?_, ?_, ?_⟩
  · rw [Fin.strictMono_iff_lt_succ]; intro i; fin_cases i
    · show (1:ℝ) < 2
      norm_num
    · show (2:ℝ) < 4
      norm_num
  · rw [Fin.strictMono_iff_lt_succ]; intro i; fin_cases i
    · show (-1:ℝ) < 0
      norm_num
    · show (0:ℝ) < 1
      norm_num
  · intro j; fin_cases j
    · show (0:ℝ) - (-1) = 1
      norm_num
    · show (1:ℝ) - 0 = 1
      norm_num
  · intro l
    have := Real.two_le_pi
    fin_cases l
    · show |(-1:ℝ)| ≤ _
      norm_num; linarith
    · show |(0:ℝ)| ≤ _
      norm_num; linarith
    · show |(1:ℝ)| ≤ _
      norm_num; linarith

end Pyirf.Irf
