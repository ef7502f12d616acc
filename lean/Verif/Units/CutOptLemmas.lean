import Verif.Units.CutOptModel
import Verif.Units.SensProps

/-!
# Lemmas for C156: scaling of the functions called by the cut optimization
-/
set_option linter.unusedSectionVars false
set_option linter.unusedSimpArgs false

namespace Pyirf.Units
open Pyirf Pyirf.Np Pyirf.Io Pyirf.Binning Pyirf.Cuts Pyirf.Sensitivity Pyirf.CutOpt

/-! ## Bin indices -/

theorem binIdx_si (energy : PhysUnit ℝ) (he : 0 < energy.scale) (bins : Q (List (FV ℝ))) (hb : 0 < bins.unit.scale) (hd : bins.unit.dim = energy.dim) (data : List (FV ℝ)) :
    calculateBinIndicesQ ⟨energy, data⟩ bins = calculateBinIndices false false (data.map (Units.si energy)) (bins.val.map (Units.si bins.unit)) := by
  rw [(C153_bin_indices ⟨energy, data⟩ bins he hb).1 hd radian (by show (0 : ℝ) < 1; norm_num)]
  have e : ∀ (un : PhysUnit ℝ) (l : List (FV ℝ)), (⟨un, l⟩ : Q (List (FV ℝ))).listIn radian = l.map (Units.si un) := fun un l => by
    unfold Q.listIn
    exact List.map_congr_left fun x _ => si_eq_conv un x
  rw [e, e bins.unit bins.val]
  rfl

/-! ## Tables of cuts -/

/-- bins and cuts of a table multiplied by numbers -/
noncomputable def mapCuts {C D : Type} (f : FV ℝ → FV ℝ) (T : C → D) (t : CutTable ℝ C) : CutTable ℝ D := ⟨t.low.map f, t.high.map f, t.center.map f, t.nEvents, t.cut.map T⟩

theorem cutStep_map {C D : Type} (S : FV ℝ → FV ℝ) (T : C → D) (f : FV ℝ → FV ℝ) (pct : List (FV ℝ) → Except Err C) (pct' : List (FV ℝ) → Except Err D) (clip : C → C) (clip' : D → D) (fill : C)
    (minEvents : ℤ) (byBin : List (ℕ × FV ℝ)) (hp : ∀ k, pct' (((byBin.filter (fun e => e.1 = k)).map Prod.snd).map S) = (pct ((byBin.filter (fun e => e.1 = k)).map Prod.snd)).map T)
    (hc : ∀ v, clip' (T v) = T (clip v)) (tab : CutTable ℝ C) (k : ℕ) :
    cutStep pct' clip' (T fill) minEvents (byBin.map fun e => (e.1, S e.2)) (mapCuts f T tab) k = (cutStep pct clip fill minEvents byBin tab k).map (mapCuts f T) := by
  have hg : ((byBin.map fun e => (e.1, S e.2)).filter (fun e => e.1 = k)).map Prod.snd = ((byBin.filter (fun e => e.1 = k)).map Prod.snd).map S := by
    rw [List.filter_map, List.map_map, List.map_map]; rfl
  unfold cutStep
  simp only
  rw [hg, List.length_map, hp]
  by_cases h : ((((byBin.filter (fun e => e.1 = k)).map Prod.snd).length : ℕ) : ℤ) < minEvents
  · rw [if_pos h, if_pos h]
    simp only [Except.map, mapCuts, List.map_set]
  · rw [if_neg h, if_neg h]
    cases pct ((byBin.filter (fun e => e.1 = k)).map Prod.snd) with
    | error e => rfl
    | ok v => simp only [Except.map, mapCuts, List.map_set, hc]

theorem cutSteps_map {C D : Type} (S : FV ℝ → FV ℝ) (T : C → D) (f : FV ℝ → FV ℝ) (pct : List (FV ℝ) → Except Err C) (pct' : List (FV ℝ) → Except Err D) (clip : C → C) (clip' : D → D) (fill : C)
    (minEvents : ℤ) (byBin : List (ℕ × FV ℝ)) (hp : ∀ k, pct' (((byBin.filter (fun e => e.1 = k)).map Prod.snd).map S) = (pct ((byBin.filter (fun e => e.1 = k)).map Prod.snd)).map T)
    (hc : ∀ v, clip' (T v) = T (clip v)) (keys : List ℕ) (tab : CutTable ℝ C) :
    keys.foldlM (cutStep pct' clip' (T fill) minEvents (byBin.map fun e => (e.1, S e.2))) (mapCuts f T tab) = (keys.foldlM (cutStep pct clip fill minEvents byBin) tab).map (mapCuts f T) := by
  induction keys generalizing tab with
  | nil => rfl
  | cons k l ih =>
    rw [List.foldlM_cons, List.foldlM_cons, cutStep_map S T f pct pct' clip clip' fill minEvents byBin hp hc]
    cases cutStep pct clip fill minEvents byBin tab k with
    | error e => rfl
    | ok t => exact ih t

theorem cutTable_si {C D : Type} (S : FV ℝ → FV ℝ) (T : C → D) (pct : List (FV ℝ) → Except Err C) (pct' : List (FV ℝ) → Except Err D) (clip : C → C) (clip' : D → D) (fill : C) (minEvents : ℤ)
    (evs : List (FV ℝ × FV ℝ)) (energy : PhysUnit ℝ) (he : 0 < energy.scale) (bins : Q (List (FV ℝ))) (hb : 0 < bins.unit.scale) (hd : bins.unit.dim = energy.dim)
    (hp : ∀ g, (∀ v ∈ g, v ∈ evs.map Prod.fst) → pct' (g.map S) = (pct g).map T) (hc : ∀ v, clip' (T v) = T (clip v)) :
    cutTable pct' clip' (T fill) minEvents (evs.map fun e => (S e.1, Units.si energy e.2)) (bins.val.map (Units.si bins.unit)) =
      (cutTableQ pct clip fill minEvents evs energy bins).map (mapCuts (Units.si bins.unit) T) := by
  unfold cutTable cutTableQ
  have e1 : (evs.map fun e => (S e.1, Units.si energy e.2)).map Prod.snd = (evs.map Prod.snd).map (Units.si energy) := by rw [List.map_map, List.map_map]; rfl
  have e2 : (evs.map fun e => (S e.1, Units.si energy e.2)).map Prod.fst = (evs.map Prod.fst).map S := by rw [List.map_map, List.map_map]; rfl
  rw [binIdx_si energy he bins hb hd, e1, e2]
  generalize calculateBinIndices (K := ℝ) false false _ _ = r
  cases r with
  | error e => rfl
  | ok idx =>
    simp only
    have e3 : ((idx.zip ((evs.map Prod.fst).map S)).filter (fun e => e.1.2)).map (fun e => (e.1.1.toNat, e.2)) =
        (((idx.zip (evs.map Prod.fst)).filter (fun e => e.1.2)).map (fun e => (e.1.1.toNat, e.2))).map fun e => (e.1, S e.2) := by
      rw [List.zip_map_right, List.filter_map, List.map_map, List.map_map]
      rfl
    have e4 : ∀ l : List (ℕ × FV ℝ), (l.map fun e => (e.1, S e.2)).map Prod.fst = l.map Prod.fst := fun l => by rw [List.map_map]; rfl
    rw [e3, e4]
    generalize hbb : ((idx.zip (evs.map Prod.fst)).filter (fun e => e.1.2)).map (fun e => (e.1.1.toNat, e.2)) = byBin
    have hmem : ∀ v ∈ byBin.map Prod.snd, v ∈ evs.map Prod.fst := by
      intro v hv
      obtain ⟨e, he, rfl⟩ := List.mem_map.1 hv
      rw [← hbb] at he
      obtain ⟨e', he', rfl⟩ := List.mem_map.1 he
      exact (List.of_mem_zip (List.mem_filter.1 he').1).2
    generalize Cuts.groupedBy _ = r2
    cases r2 with
    | error e => rfl
    | ok keys =>
      simp only
      have hinit : (⟨(bins.val.map (Units.si bins.unit)).dropLast, (bins.val.map (Units.si bins.unit)).tail, binCenter (bins.val.map (Units.si bins.unit)),
          List.replicate ((bins.val.map (Units.si bins.unit)).length - 1) 0, List.replicate ((bins.val.map (Units.si bins.unit)).length - 1) (T fill)⟩ : CutTable ℝ D) =
          mapCuts (Units.si bins.unit) T ⟨bins.val.dropLast, bins.val.tail, binCenter bins.val, List.replicate (bins.val.length - 1) 0, List.replicate (bins.val.length - 1) fill⟩ := by
        unfold mapCuts
        have := binCenter_scale hb bins.val
        simp only [List.map_dropLast, List.map_tail, List.length_map, List.map_replicate]
        congr 1
      rw [hinit]
      refine cutSteps_map S T _ pct pct' clip clip' fill minEvents byBin (fun k => hp _ fun v hv => hmem v ?_) hc keys _
      obtain ⟨e, he, rfl⟩ := List.mem_map.1 hv
      exact List.mem_map_of_mem (List.mem_filter.1 he).1

/-! ## Evaluation of cuts -/

theorem npIndex_map {C D : Type} (T : C → D) (l : List C) (i : ℤ) : npIndex (l.map T) i = (npIndex l i).map T := by
  unfold npIndex
  rw [List.length_map]
  simp only [List.getElem?_map]
  split_ifs
  · cases l[i.toNat]? <;> rfl
  · cases l[(i + ↑l.length).toNat]? <;> rfl
  · rfl

theorem evalOne_map {C D : Type} (S : FV ℝ → FV ℝ) (T : C → D) (op : FV ℝ → C → Bool) (op' : FV ℝ → D → Bool) (h : ∀ a b, op' (S a) (T b) = op a b) (cut : List C) (e : FV ℝ × (ℤ × Bool)) :
    evalOne (cut.map T) op' (S e.1, e.2) = evalOne cut op e := by
  unfold evalOne
  simp only
  rw [npIndex_map]
  cases npIndex cut e.2.1 with
  | error x => rfl
  | ok c => simp only [Except.map, h]

theorem mapM_congr' {α β : Type} {f g : α → Except Err β} {l : List α} (h : ∀ x ∈ l, f x = g x) : l.mapM f = l.mapM g := by
  induction l with
  | nil => rfl
  | cons a l ih => rw [List.mapM_cons, List.mapM_cons, h a List.mem_cons_self, ih fun x hx => h x (List.mem_cons_of_mem _ hx)]

theorem mapM_comp' {α β γ : Type} (f : β → Except Err γ) (g : α → β) (l : List α) : (l.map g).mapM f = l.mapM fun x => f (g x) := by
  induction l with
  | nil => rfl
  | cons a l ih => rw [List.map_cons, List.mapM_cons, List.mapM_cons, ih]

theorem mapM_map' {α β γ : Type} (f : α → Except Err β) (g : β → γ) (l : List α) : l.mapM (fun x => (f x).map g) = (l.mapM f).map (List.map g) := by
  induction l with
  | nil => rfl
  | cons a l ih =>
    rw [List.mapM_cons, List.mapM_cons, ih]
    cases f a with
    | error e => rfl
    | ok v =>
      simp only [bind, Except.bind, Except.map, pure, Except.pure]
      generalize List.mapM (m := Except Err) f l = r
      cases r <;> rfl

theorem evaluateByIndex_map (S : FV ℝ → FV ℝ) (op : FV ℝ → FV ℝ → Bool) (h : ∀ a b, op (S a) (S b) = op a b) (values : List (FV ℝ)) (index : List (ℤ × Bool)) (t t' : CutTable ℝ (FV ℝ))
    (ht : t'.cut = t.cut.map S) : evaluateBinnedCutByIndex true (values.map S) index t' op = evaluateBinnedCutByIndex true values index t op := by
  unfold evaluateBinnedCutByIndex
  simp only [Bool.not_true, Bool.false_eq_true, if_false]
  rw [ht, List.zip_map_left, mapM_comp']
  exact mapM_congr' fun e _ => evalOne_map S S op op h t.cut e

theorem le_si {un : PhysUnit ℝ} (h : 0 < un.scale) (a b : FV ℝ) : FV.le (Units.si un a) (Units.si un b) = FV.le a b := le_scale h a b

/-- the table in SI units -/
noncomputable def CutsQ.si (t : CutsQ (FV ℝ)) : CutTable ℝ (FV ℝ) := mapCuts (Units.si t.bin) (Units.si t.cut) t.table
/-- the table in SI units, for several cuts per bin -/
noncomputable def CutsQ.siRows (t : CutsQ (List (FV ℝ))) : CutTable ℝ (List (FV ℝ)) := mapCuts (Units.si t.bin) (List.map (Units.si t.cut)) t.table

theorem si_one (x : FV ℝ) : Units.si unitOne x = x := one_scale x

theorem si_one' : Units.si (unitOne : PhysUnit ℝ) = id := funext si_one

theorem evaluateByIndexQ_si {vu : PhysUnit ℝ} (hv : 0 < vu.scale) (values : List (FV ℝ)) (index : List (ℤ × Bool)) (t : CutsQ (FV ℝ)) (hd : t.cut.dim = vu.dim) :
    evaluateByIndexQ vu values index t FV.le = evaluateBinnedCutByIndex true (values.map (Units.si vu)) index t.si FV.le := by
  unfold evaluateByIndexQ
  simp only [if_pos hd]
  rw [evaluateByIndex_map (Units.si vu) FV.le (le_si hv) values index { t.table with cut := t.table.cut.map (conv t.cut vu) } t.si]
  · generalize evaluateBinnedCutByIndex (K := ℝ) true _ _ _ _ = r
    cases r <;> rfl
  · show t.table.cut.map (Units.si t.cut) = (t.table.cut.map (conv t.cut vu)).map (Units.si vu)
    rw [List.map_map]
    exact List.map_congr_left fun x _ => (si_conv hv x).symm

theorem evaluateByIndexPlain_si (values : List (FV ℝ)) (index : List (ℤ × Bool)) (t : CutsQ (FV ℝ)) (hu : t.cut = unitOne) (op : FV ℝ → FV ℝ → Bool) :
    evaluateByIndexPlain values index t op = evaluateBinnedCutByIndex true values index t.si op := by
  have h := evaluateByIndex_map id op (fun _ _ => rfl) values index t.table t.si (by show t.table.cut.map (Units.si t.cut) = _; rw [hu, si_one'])
  rw [List.map_id] at h
  exact h.symm

theorem edges_si {C D : Type} (f : FV ℝ → FV ℝ) (T : C → D) (t : CutsQ C) :
    (match (mapCuts f T t.table).high.getLast? with | none => (Except.error Err.indexError : Except Err (List (FV ℝ))) | some hi => .ok ((mapCuts f T t.table).low ++ [hi])) =
      t.edges.map fun q => q.val.map f := by
  unfold CutsQ.edges mapCuts
  simp only [List.getLast?_map]
  cases t.table.high.getLast? with
  | none => rfl
  | some hi => simp [Except.map]

theorem evaluateBinnedCut_eq (values binValues : List (FV ℝ)) (t : CutTable ℝ (FV ℝ)) (op : FV ℝ → FV ℝ → Bool) :
    evaluateBinnedCut true values binValues t op =
      (match t.high.getLast? with | none => (Except.error Err.indexError : Except Err (List (FV ℝ))) | some hi => .ok (t.low ++ [hi])).bind fun edges =>
        (calculateBinIndices false false binValues edges).bind fun idx => evaluateBinnedCutByIndex true values idx t op := by
  unfold evaluateBinnedCut
  simp only [Bool.not_true, Bool.false_eq_true, if_false]
  cases t.high.getLast? with
  | none => rfl
  | some hi =>
    simp only [Except.bind]
    generalize calculateBinIndices (K := ℝ) false false _ _ = r
    cases r <;> rfl

theorem evaluateCutQ_si {vu energy : PhysUnit ℝ} (hv : 0 < vu.scale) (he : 0 < energy.scale) (values binValues : List (FV ℝ)) (t : CutsQ (FV ℝ)) (hb : 0 < t.bin.scale) (hd : t.cut.dim = vu.dim)
    (hbd : t.bin.dim = energy.dim) :
    evaluateCutQ vu values energy binValues t FV.le = evaluateBinnedCut true (values.map (Units.si vu)) (binValues.map (Units.si energy)) t.si FV.le := by
  rw [evaluateBinnedCut_eq]
  have := edges_si (Units.si t.bin) (Units.si t.cut) t
  unfold CutsQ.si at this ⊢
  rw [this]
  unfold evaluateCutQ
  unfold CutsQ.edges
  cases t.table.high.getLast? with
  | none => rfl
  | some hi =>
    simp only [Except.map, Except.bind, bind]
    rw [binIdx_si energy he ⟨t.bin, t.table.low ++ [hi]⟩ hb hbd]
    generalize calculateBinIndices (K := ℝ) false false _ _ = r
    cases r with
    | error e => rfl
    | ok idx => exact evaluateByIndexQ_si hv values idx t hd

theorem evaluateCutPlain_si {energy : PhysUnit ℝ} (he : 0 < energy.scale) (values binValues : List (FV ℝ)) (t : CutsQ (FV ℝ)) (hb : 0 < t.bin.scale) (hu : t.cut = unitOne)
    (hbd : t.bin.dim = energy.dim) (op : FV ℝ → FV ℝ → Bool) :
    evaluateCutPlain values energy binValues t op = evaluateBinnedCut true values (binValues.map (Units.si energy)) t.si op := by
  rw [evaluateBinnedCut_eq]
  have := edges_si (Units.si t.bin) (Units.si t.cut) t
  unfold CutsQ.si at this ⊢
  rw [this]
  unfold evaluateCutPlain
  unfold CutsQ.edges
  cases t.table.high.getLast? with
  | none => rfl
  | some hi =>
    simp only [Except.map, Except.bind, bind]
    rw [binIdx_si energy he ⟨t.bin, t.table.low ++ [hi]⟩ hb hbd]
    generalize calculateBinIndices (K := ℝ) false false _ _ = r
    cases r with
    | error e => rfl
    | ok idx => exact evaluateByIndexPlain_si values idx t hu op

/-! ## Percentiles -/

theorem plainCutsQ_si (evs : List (FV ℝ × FV ℝ)) {energy : PhysUnit ℝ} (he : 0 < energy.scale) (bins : Q (List (FV ℝ))) (hb : 0 < bins.unit.scale) (hd : bins.unit.dim = energy.dim) (fill : FV ℝ)
    (ps : List ℝ) :
    (plainCutsQ evs energy bins fill ps).map CutsQ.siRows =
      percentileCuts (evs.map fun e => (e.1, Units.si energy e.2)) (bins.val.map (Units.si bins.unit)) fill ps none none minEventsDefault ∧
    ∀ t, plainCutsQ evs energy bins fill ps = .ok t → t.bin = bins.unit ∧ t.cut = unitOne := by
  unfold plainCutsQ percentileCuts
  have hT : List.map (Units.si (unitOne : PhysUnit ℝ)) = id := by rw [si_one']; funext l; simp
  have h := cutTable_si id id (fun g => ps.mapM (fun p => Np.nanpercentile g p)) (fun g => ps.mapM (fun p => Np.nanpercentile g p)) (fun vs => vs.map (clipOpt none none))
    (fun vs => vs.map (clipOpt none none)) (ps.map fun _ => fill) minEventsDefault evs energy he bins hb hd
    (fun g _ => by rw [List.map_id]; generalize List.mapM (m := Except Err) _ ps = r; cases r <;> rfl) (fun _ => rfl)
  simp only [id] at h
  rw [h]
  cases cutTableQ (fun g => ps.mapM (fun p => Np.nanpercentile g p)) (fun vs => vs.map (clipOpt none none)) (ps.map fun _ => fill) minEventsDefault evs energy bins with
  | error e => exact ⟨rfl, fun t h => by cases h⟩
  | ok t =>
    refine ⟨?_, fun t h => by injection h with h; rw [← h]; exact ⟨rfl, rfl⟩⟩
    simp only [Except.map, CutsQ.siRows]
    rw [hT]

theorem nanpercentiles_scale {c : ℝ} (hc : 0 < c) {g : List (FV ℝ)} (hg : NoInf g) (ps : List ℝ) :
    ps.mapM (fun p => Np.nanpercentile (g.map (FV.fin c * ·)) p) = (ps.mapM (fun p => Np.nanpercentile g p)).map (fun l => l.map (FV.fin c * ·)) := by
  have := quantiles_scale hc hg (ps.map fun p => p / 100)
  rw [mapM_comp', mapM_comp'] at this
  exact this

theorem unitCutsQ_si {vu : PhysUnit ℝ} (hv : 0 < vu.scale) (evs : List (FV ℝ × FV ℝ)) (hi : NoInf (evs.map Prod.fst)) {energy : PhysUnit ℝ} (he : 0 < energy.scale) (bins : Q (List (FV ℝ)))
    (hb : 0 < bins.unit.scale) (hd : bins.unit.dim = energy.dim) (fill minV maxV : Q (FV ℝ)) (hf : fill.unit.dim = vu.dim) (hmn : minV.unit.dim = vu.dim) (hmx : maxV.unit.dim = vu.dim)
    (ps : List ℝ) :
    (unitCutsQ vu evs energy bins fill minV maxV ps).map CutsQ.siRows =
      percentileCuts (evs.map fun e => (Units.si vu e.1, Units.si energy e.2)) (bins.val.map (Units.si bins.unit)) (Units.si fill.unit fill.val) ps (some (Units.si minV.unit minV.val))
        (some (Units.si maxV.unit maxV.val)) minEventsDefault ∧
    ∀ t, unitCutsQ vu evs energy bins fill minV maxV ps = .ok t → t.bin = bins.unit ∧ t.cut = vu := by
  unfold unitCutsQ percentileCuts
  simp only [checkDim_bind]
  rw [if_pos hf, if_pos hmn, if_pos hmx]
  have h := cutTable_si (Units.si vu) (List.map (Units.si vu)) (fun g => ps.mapM (fun p => Np.nanpercentile g p)) (fun g => ps.mapM (fun p => Np.nanpercentile g p))
    (fun vs => vs.map (clipOpt (some (conv minV.unit vu minV.val)) (some (conv maxV.unit vu maxV.val))))
    (fun vs => vs.map (clipOpt (some (Units.si minV.unit minV.val)) (some (Units.si maxV.unit maxV.val)))) (ps.map fun _ => conv fill.unit vu fill.val) minEventsDefault evs energy he bins hb hd
    (fun g hg => nanpercentiles_scale hv (fun v hv' => hi v (hg v hv')) ps)
    (fun vs => by
      rw [List.map_map, List.map_map]
      apply List.map_congr_left
      intro v _
      have := clipOpt_scale hv (some (conv minV.unit vu minV.val)) (some (conv maxV.unit vu maxV.val)) v
      have k1 := si_conv (a := minV.unit) hv minV.val
      have k2 := si_conv (a := maxV.unit) hv maxV.val
      unfold Units.si at k1 k2 ⊢
      simp only [Option.map_some, k1, k2] at this
      exact this)
  have e : (ps.map fun _ => conv fill.unit vu fill.val).map (Units.si vu) = ps.map fun _ => Units.si fill.unit fill.val := by
    rw [List.map_map]
    exact List.map_congr_left fun _ _ => si_conv hv _
  rw [e] at h
  rw [h]
  generalize cutTableQ (C := List (FV ℝ)) _ _ _ _ _ _ _ = r
  cases r with
  | error e => exact ⟨rfl, fun t h => by cases h⟩
  | ok t => exact ⟨rfl, fun t h => by injection h with h; rw [← h]; exact ⟨rfl, rfl⟩⟩

end Pyirf.Units
