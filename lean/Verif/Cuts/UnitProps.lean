import Verif.Cuts.UnitModel
import Verif.Cuts.PercentileProps
import Verif.Io.GadfProps

/-!
# Properties C112 (integer values) and C113 (units) of calculate_percentile_cut
-/
set_option linter.unusedSectionVars false
set_option linter.unusedSimpArgs false

namespace Pyirf.Cuts
open Pyirf Pyirf.Binning Pyirf.Io
variable {K : Type} [Field K] [LinearOrder K] [IsStrictOrderedRing K] [FloorRing K]

/-! ## Lemmas: multiplication with a positive number -/

theorem scale_pinf {c : K} (hc : 0 < c) : FV.fin c * (FV.pinf : FV K) = .pinf := FV.infSign_pos hc
theorem scale_ninf {c : K} (hc : 0 < c) : FV.fin c * (FV.ninf : FV K) = .ninf := by
  show FV.infSign (-c) = .ninf
  unfold FV.infSign
  rw [if_neg (by linarith), if_neg (by linarith)]

theorem scale_scale {a : K} (ha : 0 < a) (b : K) (v : FV K) : FV.fin a * (FV.fin b * v) = FV.fin (a * b) * v := fin_mul_fin_mul ha b v

theorem isNan_scale {c : K} (hc : 0 < c) (a : FV K) : (FV.fin c * a).isNan = a.isNan := by
  cases a <;> simp [scale_pinf hc, scale_ninf hc, FV.isNan]

theorem lt_scale {c : K} (hc : 0 < c) (a b : FV K) : FV.lt (FV.fin c * a) (FV.fin c * b) = FV.lt a b := by
  cases a <;> cases b <;> simp [scale_pinf hc, scale_ninf hc, FV.lt, hc]

theorem le_scale {c : K} (hc : 0 < c) (a b : FV K) : FV.le (FV.fin c * a) (FV.fin c * b) = FV.le a b := by
  cases a <;> cases b <;> simp [scale_pinf hc, scale_ninf hc, FV.le, hc]

theorem maximum_scale {c : K} (hc : 0 < c) (a b : FV K) : FV.maximum (FV.fin c * a) (FV.fin c * b) = FV.fin c * FV.maximum a b := by
  unfold FV.maximum
  rw [isNan_scale hc, isNan_scale hc, lt_scale hc]
  (repeat' split) <;> rfl

theorem minimum_scale {c : K} (hc : 0 < c) (a b : FV K) : FV.minimum (FV.fin c * a) (FV.fin c * b) = FV.fin c * FV.minimum a b := by
  unfold FV.minimum
  rw [isNan_scale hc, isNan_scale hc, lt_scale hc]
  (repeat' split) <;> rfl

theorem clipOpt_scale {c : K} (hc : 0 < c) (lo hi : Option (FV K)) (v : FV K) :
    clipOpt (lo.map (FV.fin c * ·)) (hi.map (FV.fin c * ·)) (FV.fin c * v) = FV.fin c * clipOpt lo hi v := by
  unfold clipOpt
  cases lo <;> cases hi <;> simp [maximum_scale hc, minimum_scale hc]

theorem isPercentile_scale {xs : List K} {p v c : K} (hc : 0 < c) (hv : IsPercentile xs p v) :
    IsPercentile (xs.map fun x => c * x) p (c * v) := by
  obtain ⟨s, s1, s2, i, f, f0, f1, fe, hi, rfl⟩ := hv
  refine ⟨s.map fun x => c * x, s1.map _, ?_, i, f, f0, f1, by simpa using fe, by simpa using hi, ?_⟩
  · exact List.Pairwise.map _ (fun a b' h => mul_le_mul_of_nonneg_left h hc.le) s2
  · rcases Nat.lt_or_ge (i + 1) s.length with h | h
    · simp [List.getD_eq_getElem?_getD, h]; ring
    · simp [List.getD_eq_getElem?_getD, h]

theorem dropNan_scale {c : K} (hc : 0 < c) (g : List (FV K)) :
    Np.dropNan (g.map (FV.fin c * ·)) = (Np.dropNan g).map fun x => c * x := by
  unfold Np.dropNan
  rw [List.filterMap_map, List.map_filterMap]
  congr 1
  funext a
  cases a <;> simp [scale_pinf hc, scale_ninf hc]

theorem pctVal_scale {c p : K} (hc : 0 < c) (h0 : 0 ≤ p) (h1 : p ≤ 100) {g : List (FV K)} (hg : Np.NoInf g) :
    pctVal p (g.map (FV.fin c * ·)) = FV.fin c * pctVal p g := by
  have hg' : Np.NoInf (g.map (FV.fin c * ·)) := by
    intro v hv
    obtain ⟨w, hw, rfl⟩ := List.mem_map.mp hv
    have := hg w hw
    cases w <;> simp_all
  rw [pctVal_noInf h0 h1 hg, pctVal_noInf h0 h1 hg', dropNan_scale hc]
  by_cases h : Np.dropNan g = []
  · simp [h]
  · rw [if_neg (by simpa using h), if_neg h, FV.fin_mul_fin]
    congr 1
    exact isPercentile_unique (isPercentile_of_quantileSorted (by simpa using h) h0 h1)
      (isPercentile_scale hc (isPercentile_of_quantileSorted h h0 h1))

theorem group_scale (c : K) (bins : List (FV K)) (evs : List (FV K × FV K)) (i : ℕ) :
    group bins (evs.map fun e => (FV.fin c * e.1, e.2)) i = (group bins evs i).map (FV.fin c * ·) := by
  unfold group
  rw [List.filter_map, List.map_map, List.map_map]
  rfl

/-- scaling values, fill value and bounds scales the cuts -/
theorem percentileCut_scale {c : K} (hc : 0 < c) (evs : List (FV K × FV K)) (hfn : FiniteOrNan evs) {bins : List (FV K)} (fill : FV K) {p : K}
    (lo hi : Option (FV K)) (minEvents : ℤ) (h : Increasing bins) (hl : 0 < bins.length) (h0 : 0 ≤ p) (h1 : p ≤ 100)
    (hin : SomeInside bins evs) :
    ∃ t, percentileCut evs bins fill p lo hi minEvents = .ok t ∧
      percentileCut (evs.map fun e => (FV.fin c * e.1, e.2)) bins (FV.fin c * fill) p (lo.map (FV.fin c * ·)) (hi.map (FV.fin c * ·))
        minEvents = .ok { t with cut := t.cut.map (FV.fin c * ·) } := by
  refine ⟨_, percentileCut_eq evs fill lo hi minEvents h hl h0 h1 hin, ?_⟩
  have hin' : SomeInside bins (evs.map fun e => (FV.fin c * e.1, e.2)) := by
    obtain ⟨e, he, i, hi⟩ := hin
    exact ⟨_, List.mem_map_of_mem he, i, hi⟩
  rw [percentileCut_eq _ _ _ _ minEvents h hl h0 h1 hin']
  simp only [group_scale, List.length_map, List.map_eq_nil_iff, List.map_map]
  congr 2
  apply List.map_congr_left
  intro i _
  simp only [Function.comp]
  split
  · rfl
  · rw [pctVal_scale hc h0 h1 (noInf_group fun e he => hfn e (List.mem_filter.mp he).1), clipOpt_scale hc]

/-! ## Specification of C113 -/

/-- The dimension of an argument; plain numbers are dimensionless. -/
def Qty.dim (x : Qty K) : Dim := (x.unit.map PhysUnit.dim).getD Dim.one

/-- Two arguments are the same physical quantity, perhaps in different units. -/
def Qty.Same (x y : Qty K) : Prop := x.dim = y.dim ∧ si x.unit x.value = si y.unit y.value

/-- Two optional arguments are the same quantity, or both absent. -/
def SameBound (x y : Option (Qty K)) : Prop :=
  match x, y with
  | none, none => True
  | some a, some b => a.Same b
  | _, _ => False

/-- all units have a positive size -/
def Qty.Pos (x : Qty K) : Prop := ∀ un, x.unit = some un → 0 < un.scale

theorem Qty.to_eq (x : Qty K) {vu : PhysUnit K} (hd : x.dim = vu.dim) (hv : 0 < vu.scale) :
    x.to vu = .ok (FV.fin (1 / vu.scale) * si x.unit x.value) := by
  unfold Qty.to si
  unfold Qty.dim at hd
  cases hu : x.unit with
  | none =>
    rw [hu] at hd
    simp only [Option.map_none, Option.getD_none] at hd ⊢
    rw [if_pos (show unitOne.dim = vu.dim from hd), scale_scale (a := 1 / vu.scale) (by positivity)]
    simp [unitOne]
  | some un =>
    rw [hu] at hd
    simp only [Option.map_some, Option.getD_some] at hd ⊢
    rw [if_pos hd, scale_scale (a := 1 / vu.scale) (by positivity)]
    congr 3; field_simp

theorem Qty.to_error (x : Qty K) {vu : PhysUnit K} (hd : x.dim ≠ vu.dim) : x.to vu = .error .unitsError := by
  unfold Qty.to
  unfold Qty.dim at hd
  cases hu : x.unit with
  | none => rw [hu] at hd; exact if_neg hd
  | some un => rw [hu] at hd; exact if_neg hd

theorem boundTo_eq (x : Option (Qty K)) {vu : PhysUnit K} (hd : ∀ q ∈ x, q.dim = vu.dim) (hv : 0 < vu.scale) :
    boundTo x vu = .ok (x.map fun q => FV.fin (1 / vu.scale) * si q.unit q.value) := by
  cases x with
  | none => rfl
  | some q => simp [boundTo, q.to_eq (hd q rfl) hv]

theorem percentileCutQ_eq (vu : PhysUnit K) (hv : 0 < vu.scale) (evs : List (FV K × FV K)) (bins : List (FV K)) (fill : Qty K) (p : K)
    (minV maxV : Option (Qty K)) (minEvents : ℤ) (hf : fill.dim = vu.dim) (hlo : ∀ q ∈ minV, q.dim = vu.dim)
    (hhi : ∀ q ∈ maxV, q.dim = vu.dim) :
    percentileCutQ vu evs bins fill p minV maxV minEvents =
      match percentileCut evs bins (FV.fin (1 / vu.scale) * si fill.unit fill.value) p
          (minV.map fun q => FV.fin (1 / vu.scale) * si q.unit q.value) (maxV.map fun q => FV.fin (1 / vu.scale) * si q.unit q.value)
          minEvents with
      | .error e => .error e
      | .ok t => .ok (t, some vu) := by
  unfold percentileCutQ
  rw [fill.to_eq hf hv, boundTo_eq _ hlo hv, boundTo_eq _ hhi hv]
  rfl

/-! ## C113 -/

/-- **C113** (accepted units) For values with unit `vu`: if the fill value and every given bound have the dimension of the values (and some event lies in the bins) the call succeeds and
the column `cut` is in the unit of the values; if one of them has another dimension (a plain number counts as dimensionless), it
raises UnitConversionError, whatever the other arguments are. -/
theorem C113_accepted (vu : PhysUnit K) (hv : 0 < vu.scale) (evs : List (FV K × FV K)) (bins : List (FV K)) (fill : Qty K) (p : K)
    (minV maxV : Option (Qty K)) (minEvents : ℤ) (hb : Increasing bins) (hl : 0 < bins.length) (h0 : 0 ≤ p) (h1 : p ≤ 100) :
    ((fill.dim = vu.dim ∧ (∀ q ∈ minV, q.dim = vu.dim) ∧ ∀ q ∈ maxV, q.dim = vu.dim) → (∃ e ∈ evs, ∃ i, InBin bins i e.2) →
      ∃ t, percentileCutQ vu evs bins fill p minV maxV minEvents = .ok (t, some vu)) ∧
    (¬ (fill.dim = vu.dim ∧ (∀ q ∈ minV, q.dim = vu.dim) ∧ ∀ q ∈ maxV, q.dim = vu.dim) →
      ∀ (evs' : List (FV K × FV K)) (bins' : List (FV K)) (p' : K),
        percentileCutQ vu evs' bins' fill p' minV maxV minEvents = .error .unitsError) := by
  constructor
  · rintro ⟨hf, hlo, hhi⟩ hin
    rw [percentileCutQ_eq vu hv _ _ _ _ _ _ _ hf hlo hhi, percentileCut_eq _ _ _ _ _ hb hl h0 h1 hin]
    exact ⟨_, rfl⟩
  · intro hn evs' bins' p'
    unfold percentileCutQ
    by_cases hf : fill.dim = vu.dim
    · rw [fill.to_eq hf hv]
      simp only []
      by_cases hlo : ∀ q ∈ minV, q.dim = vu.dim
      · rw [boundTo_eq _ hlo hv]
        simp only []
        have hhi : ¬ ∀ q ∈ maxV, q.dim = vu.dim := fun h => hn ⟨hf, hlo, h⟩
        cases maxV with
        | none => exact absurd (by simp) hhi
        | some q => simp [boundTo, q.to_error (vu := vu) (by intro h; exact hhi (by simpa using h))]
      · cases minV with
        | none => exact absurd (by simp) hlo
        | some q => simp [boundTo, q.to_error (vu := vu) (by intro h; exact hlo (by simpa using h))]
    · rw [fill.to_error hf]

/-- **C113** (unit of the arguments) Giving the fill value or the bounds in other units, but as the same physical quantities, does not change the
result. -/
theorem C113_argument_units (vu : PhysUnit K) (hv : 0 < vu.scale) (evs : List (FV K × FV K)) (bins : List (FV K)) (fill fill' : Qty K) (p : K)
    (minV minV' maxV maxV' : Option (Qty K)) (minEvents : ℤ) (hf : fill.Same fill') (hlo : SameBound minV minV') (hhi : SameBound maxV maxV') :
    percentileCutQ vu evs bins fill p minV maxV minEvents = percentileCutQ vu evs bins fill' p minV' maxV' minEvents := by
  have key : ∀ x y : Qty K, x.Same y → x.to vu = y.to vu := by
    intro x y ⟨h1, h2⟩
    by_cases h : x.dim = vu.dim
    · rw [x.to_eq h hv, y.to_eq (h1 ▸ h) hv, h2]
    · rw [x.to_error h, y.to_error (h1 ▸ h)]
  have keyB : ∀ x y : Option (Qty K), SameBound x y → boundTo x vu = boundTo y vu := by
    intro x y h
    cases x <;> cases y <;> simp only [SameBound] at h
    · rfl
    · simp [boundTo, key _ _ h]
  unfold percentileCutQ
  rw [key _ _ hf, keyB _ _ hlo, keyB _ _ hhi]

/-- **C113** (unit of the values) Expressing the values in another unit `vu'` of the same dimension (so that the numbers change by the ratio of the units)
gives a table with the same bins and counts and, in every row, the same physical cut, now in the unit `vu'`. Values are finite or NaN. -/
theorem C113_value_unit (vu vu' : PhysUnit K) (hv : 0 < vu.scale) (hv' : 0 < vu'.scale) (hd : vu'.dim = vu.dim) (evs : List (FV K × FV K))
    (bins : List (FV K)) (fill : Qty K) (p : K) (minV maxV : Option (Qty K)) (minEvents : ℤ) (hb : Increasing bins) (hl : 0 < bins.length)
    (h0 : 0 ≤ p) (h1 : p ≤ 100) (hfn : FiniteOrNan evs) (t : CutTable K (FV K)) (un : Option (PhysUnit K))
    (ht : percentileCutQ vu evs bins fill p minV maxV minEvents = .ok (t, un)) :
    ∃ t', percentileCutQ vu' (evs.map fun e => (FV.fin (vu.scale / vu'.scale) * e.1, e.2)) bins fill p minV maxV minEvents = .ok (t', some vu') ∧
      t'.low = t.low ∧ t'.high = t.high ∧ t'.center = t.center ∧ t'.nEvents = t.nEvents ∧
      t'.cut.map (si (some vu')) = t.cut.map (si (some vu)) := by
  have hdims : fill.dim = vu.dim ∧ (∀ q ∈ minV, q.dim = vu.dim) ∧ ∀ q ∈ maxV, q.dim = vu.dim := by
    by_contra hn
    have := (C113_accepted vu hv evs bins fill p minV maxV minEvents hb hl h0 h1).2 hn evs bins p
    rw [this] at ht; exact absurd ht (by simp)
  obtain ⟨hf, hlo, hhi⟩ := hdims
  rw [percentileCutQ_eq vu hv _ _ _ _ _ _ _ hf hlo hhi] at ht
  rw [percentileCutQ_eq vu' hv' _ _ _ _ _ _ _ (hf.trans hd.symm) (fun q h => (hlo q h).trans hd.symm) (fun q h => (hhi q h).trans hd.symm)]
  have hc : 0 < vu.scale / vu'.scale := by positivity
  have hre : ∀ x : FV K, FV.fin (1 / vu'.scale) * x = FV.fin (vu.scale / vu'.scale) * (FV.fin (1 / vu.scale) * x) := by
    intro x
    rw [scale_scale hc]
    congr 2; field_simp
  have hin : SomeInside bins evs := by
    by_contra hin
    rw [percentileCut_none evs _ p _ _ minEvents hb hl hin] at ht
    exact absurd ht (by simp)
  obtain ⟨t0, e1, e2⟩ := percentileCut_scale hc evs hfn (FV.fin (1 / vu.scale) * si fill.unit fill.value)
    (minV.map fun q => FV.fin (1 / vu.scale) * si q.unit q.value) (maxV.map fun q => FV.fin (1 / vu.scale) * si q.unit q.value) minEvents
    hb hl h0 h1 hin
  rw [e1] at ht
  simp only [Except.ok.injEq, Prod.mk.injEq] at ht
  obtain ⟨rfl, -⟩ := ht
  simp only [Option.map_map] at e2
  have eb : ∀ b : Option (Qty K), b.map (fun q => FV.fin (1 / vu'.scale) * si q.unit q.value) =
      b.map ((fun x => FV.fin (vu.scale / vu'.scale) * x) ∘ fun q => FV.fin (1 / vu.scale) * si q.unit q.value) := by
    intro b
    cases b with
    | none => rfl
    | some q => exact congrArg some (hre _)
  rw [hre, eb, eb, e2]
  refine ⟨_, rfl, rfl, rfl, rfl, rfl, ?_⟩
  rw [List.map_map]
  apply List.map_congr_left
  intro x _
  exact si_convert vu vu' hv' x

theorem npIndex_map {C D : Type} (f : C → D) (l : List C) (i : ℤ) :
    npIndex (l.map f) i = match npIndex l i with | .ok c => .ok (f c) | .error e => .error e := by
  unfold npIndex
  simp only [List.getElem?_map, List.length_map]
  split
  · cases l[i.toNat]? <;> rfl
  · split
    · cases l[(i + l.length).toNat]? <;> rfl
    · rfl

/-- **C113** (selection) Which events pass does not depend on the units: with events in `vu`, a cut table in `cu`, and any comparison that does not change
when both sides are multiplied by a positive number (le, lt, ge, gt), the flags equal those for the same events expressed in `vu'` and
the same cuts expressed in `cu'`. -/
theorem C113_selection (vu vu' cu cu' : PhysUnit K) (hv : 0 < vu.scale) (hv' : 0 < vu'.scale) (hd : vu'.dim = vu.dim) (hc' : 0 < cu'.scale) (hcd : cu'.dim = cu.dim) (isQTable : Bool)
    (values binValues : List (FV K)) (table : CutTable K (FV K)) (op : FV K → FV K → Bool)
    (hop : ∀ (c : K), 0 < c → ∀ a b, op (FV.fin c * a) (FV.fin c * b) = op a b) :
    evaluateBinnedCutQ isQTable vu' (values.map fun v => FV.fin (vu.scale / vu'.scale) * v) binValues
      { table with cut := table.cut.map fun v => FV.fin (cu.scale / cu'.scale) * v } cu' op =
    evaluateBinnedCutQ isQTable vu values binValues table cu op := by
  have hr : 0 < vu.scale / vu'.scale := by positivity
  have hcut : ∀ x : FV K, FV.fin (cu'.scale / vu'.scale) * (FV.fin (cu.scale / cu'.scale) * x) =
      FV.fin (vu.scale / vu'.scale) * (FV.fin (cu.scale / vu.scale) * x) := by
    intro x
    rw [scale_scale hr, scale_scale (a := cu'.scale / vu'.scale) (by positivity)]
    congr 2; field_simp
  have hone : ∀ (cut : List (FV K)) (idx : ℤ × Bool) (v : FV K),
      evalOne (cut.map fun x => FV.fin (vu.scale / vu'.scale) * x) op (FV.fin (vu.scale / vu'.scale) * v, idx) = evalOne cut op (v, idx) := by
    intro cut idx v
    unfold evalOne
    rw [npIndex_map]
    split
    · cases npIndex cut idx.1 with
      | error e => rfl
      | ok c => simp [hop _ hr]
    · rfl
  have hall : ∀ (index : List (ℤ × Bool)) (cut : List (FV K)),
      ((values.map fun v => FV.fin (vu.scale / vu'.scale) * v).zip index).mapM
        (evalOne (cut.map fun x => FV.fin (vu.scale / vu'.scale) * x) op) = (values.zip index).mapM (evalOne cut op) := by
    intro index cut
    rw [List.zip_map_left, List.mapM_map]
    congr 1
    funext e
    exact hone cut e.2 e.1
  unfold evaluateBinnedCutQ
  rw [hd, hcd]
  have : evaluateBinnedCut isQTable (values.map fun v => FV.fin (vu.scale / vu'.scale) * v) binValues
      { table with cut := (table.cut.map fun v => FV.fin (cu.scale / cu'.scale) * v).map fun c => FV.fin (cu'.scale / vu'.scale) * c } op =
      evaluateBinnedCut isQTable values binValues { table with cut := table.cut.map fun c => FV.fin (cu.scale / vu.scale) * c } op := by
    rw [List.map_map]
    have e : (table.cut.map ((fun c => FV.fin (cu'.scale / vu'.scale) * c) ∘ fun v => FV.fin (cu.scale / cu'.scale) * v)) =
        (table.cut.map fun c => FV.fin (cu.scale / vu.scale) * c).map fun x => FV.fin (vu.scale / vu'.scale) * x := by
      rw [List.map_map]
      apply List.map_congr_left
      intro x _
      exact hcut x
    rw [e]
    unfold evaluateBinnedCut evaluateBinnedCutByIndex
    simp only [hall]
  simp only [this]

/-- the comparisons of the operator module satisfy the hypothesis of `C113_selection` -/
theorem C113_operators (c : K) (hc : 0 < c) (a b : FV K) :
    FV.le (FV.fin c * a) (FV.fin c * b) = FV.le a b ∧ FV.lt (FV.fin c * a) (FV.fin c * b) = FV.lt a b ∧
    FV.ge (FV.fin c * a) (FV.fin c * b) = FV.ge a b :=
  ⟨le_scale hc a b, lt_scale hc a b, le_scale hc b a⟩

/-- **C113** (values without unit) If the values have no unit but the fill value is a Quantity, nothing is converted or refused: the cuts are the same
numbers as for the bare fill number, but the column is labelled with the unit of the fill value. -/
theorem C113_plain_values (evs : List (FV K × FV K)) (bins : List (FV K)) (un : PhysUnit K) (f : FV K) (p : K) (minV maxV : Option (FV K))
    (minEvents : ℤ) (hb : Increasing bins) (hl : 0 < bins.length) (h0 : 0 ≤ p) (h1 : p ≤ 100) (hin : ∃ e ∈ evs, ∃ i, InBin bins i e.2) :
    ∃ t, percentileCutPlain evs bins ⟨none, f⟩ p minV maxV minEvents = .ok (t, none) ∧
      percentileCutPlain evs bins ⟨some un, f⟩ p minV maxV minEvents = .ok (t, some un) := by
  unfold percentileCutPlain
  simp only []
  rw [percentileCut_eq _ _ _ _ _ hb hl h0 h1 hin]
  exact ⟨_, rfl, rfl⟩

/-! ## C112 -/

theorem truncZ_nonneg {v : K} (h : 0 ≤ v) : truncZ v = ⌊v⌋ := if_pos h

/-- **C112** For integer values, at least one of them in the bins, the call succeeds and every entry of the column `cut` is the entry the same call gives for the values converted to
floats, rounded towards zero (also the fill value and bounds); the other columns are the same. -/
theorem C112_integer_values (evs : List (ℤ × FV K)) (bins : List (FV K)) (fill p : K) (lo hi : Option K) (minEvents : ℤ)
    (hb : Increasing bins) (hl : 0 < bins.length) (h0 : 0 ≤ p) (h1 : p ≤ 100) (hin : ∃ e ∈ evs, ∃ i, InBin bins i e.2) :
    ∃ t t', percentileCutInt evs bins fill p (lo.map .fin) (hi.map .fin) minEvents = .ok t ∧
      percentileCut (evs.map fun e => (FV.fin (e.1 : K), e.2)) bins (.fin fill) p (lo.map .fin) (hi.map .fin) minEvents = .ok t' ∧
      t.low = t'.low ∧ t.high = t'.high ∧ t.center = t'.center ∧ t.nEvents = t'.nEvents ∧
      ∃ hn : t.cut.length = t'.cut.length, ∀ (i : ℕ) (h : i < t'.cut.length), ∃ v : K, t'.cut[i] = .fin v ∧
        (0 ≤ v → (t.cut[i] : K) ≤ v ∧ v < t.cut[i] + 1) ∧ (v ≤ 0 → v ≤ t.cut[i] ∧ (t.cut[i] : K) < v + 1) := by
  have ht := percentileCut_eq (evs.map fun e => (FV.fin (e.1 : K), e.2)) (.fin fill) (lo.map .fin) (hi.map .fin) minEvents hb hl h0 h1
    (by obtain ⟨e, he, i, hi⟩ := hin; exact ⟨_, List.mem_map_of_mem he, i, hi⟩)
  refine ⟨_, _, by unfold percentileCutInt; rw [ht], ht, rfl, rfl, rfl, rfl, by simp, ?_⟩
  intro i h
  simp only [List.length_map, List.length_range] at h
  simp only [List.getElem_map, List.getElem_range]
  have hfin : ∃ v, (if group bins (evs.map fun e => (FV.fin (e.1 : K), e.2)) i = [] ∨
      ((group bins (evs.map fun e => (FV.fin (e.1 : K), e.2)) i).length : ℤ) < minEvents then FV.fin fill
      else clipOpt (lo.map .fin) (hi.map .fin) (pctVal p (group bins (evs.map fun e => (FV.fin (e.1 : K), e.2)) i))) = .fin v := by
    split
    · exact ⟨_, rfl⟩
    · rename_i hne
      have hg : group bins (evs.map fun e => (FV.fin (e.1 : K), e.2)) i ≠ [] := fun h => hne (Or.inl h)
      obtain ⟨e, he, hin⟩ := (group_ne_nil_iff bins _ i).mp hg
      have hd : Np.dropNan (group bins (evs.map fun e => (FV.fin (e.1 : K), e.2)) i) ≠ [] := by
        obtain ⟨e0, h0, rfl⟩ := List.mem_map.mp he
        apply List.ne_nil_of_mem (a := (e0.1 : K))
        unfold Np.dropNan group
        rw [List.mem_filterMap]
        refine ⟨.fin (e0.1 : K), ?_, rfl⟩
        rw [List.mem_map]
        exact ⟨_, List.mem_filter.mpr ⟨he, by simpa using hin⟩, rfl⟩
      have hni : Np.NoInf (group bins (evs.map fun e => (FV.fin (e.1 : K), e.2)) i) := noInf_group fun e he => by
        obtain ⟨e0, -, rfl⟩ := List.mem_map.mp (List.mem_filter.mp he).1
        simp
      rw [pctVal_noInf h0 h1 hni, if_neg hd, clipOpt_fin]
      exact ⟨_, rfl⟩
  obtain ⟨v, hv⟩ := hfin
  refine ⟨v, hv, ?_⟩
  rw [hv]
  simp only [toIntColumn, truncZ]
  constructor
  · intro h
    rw [if_pos h]
    exact ⟨Int.floor_le v, Int.lt_floor_add_one v⟩
  · intro h
    rcases h.lt_or_eq with h | rfl
    · rw [if_neg (not_le.mpr h)]
      exact ⟨Int.le_ceil v, Int.ceil_lt_add_one v⟩
    · simp

/-- **C112** (effect on selections) With a non-negative exact cut `v` and the stored integer cut `c` (as in `C112_integer_values`): an integer value passes `le`
for `c` exactly when it passes for `v`; for `ge` it passes if it passes for `v`, and the additional values are those equal to `c`
when `v` is not an integer. With a non-positive cut the roles are exchanged. -/
theorem C112_selection (v : K) (c n : ℤ) (hc : (0 ≤ v → (c : K) ≤ v ∧ v < c + 1) ∧ (v ≤ 0 → v ≤ c ∧ (c : K) < v + 1)) :
    (0 ≤ v → (n ≤ c ↔ (n : K) ≤ v) ∧ (c ≤ n ↔ (v ≤ n ∨ n = c))) ∧
    (v ≤ 0 → (c ≤ n ↔ v ≤ (n : K)) ∧ (n ≤ c ↔ ((n : K) ≤ v ∨ n = c))) := by
  constructor
  · intro h
    obtain ⟨h1, h2⟩ := hc.1 h
    have a1 : n ≤ c ↔ (n : K) ≤ v := by
      constructor
      · intro hn
        have : (n : K) ≤ c := by exact_mod_cast hn
        linarith
      · intro hn
        have : (n : K) < c + 1 := by linarith
        have : n < c + 1 := by exact_mod_cast this
        omega
    refine ⟨a1, ?_⟩
    constructor
    · intro hn
      rcases Int.lt_or_eq_of_le hn with hlt | he
      · left
        have : ((c + 1 : ℤ) : K) ≤ n := by exact_mod_cast hlt
        push_cast at this
        linarith
      · exact Or.inr he.symm
    · rintro (hn | rfl)
      · have : (c : K) ≤ n := by linarith
        exact_mod_cast this
      · exact le_refl _
  · intro h
    obtain ⟨h1, h2⟩ := hc.2 h
    have a1 : c ≤ n ↔ v ≤ (n : K) := by
      constructor
      · intro hn
        have : (c : K) ≤ n := by exact_mod_cast hn
        linarith
      · intro hn
        have : (c : K) < n + 1 := by linarith
        have : c < n + 1 := by exact_mod_cast this
        omega
    refine ⟨a1, ?_⟩
    constructor
    · intro hn
      rcases Int.lt_or_eq_of_le hn with hlt | he
      · left
        have : (n : K) ≤ ((c - 1 : ℤ) : K) := by
          have : n ≤ c - 1 := by omega
          exact_mod_cast this
        push_cast at this
        linarith
      · exact Or.inr he
    · rintro (hn | rfl)
      · have : (n : K) ≤ c := by linarith
        exact_mod_cast this
      · exact le_refl _

/-! ## The hypotheses are met -/

/-! ## C14 with units -/

/-- the physical content of a table: its cells in SI units -/
def QTab.physical (t : QTab K) : List (List (FV K)) := t.rows.map (List.zipWith si t.units)

theorem si_injective {u : Option (PhysUnit K)} (hu : ∀ un, u = some un → 0 < un.scale) {a b : FV K} (h : si u a = si u b) : a = b := by
  have hc : 0 < (u.map PhysUnit.scale).getD 1 := by
    cases u with
    | none => simp
    | some un => simpa using hu un rfl
  unfold si at h
  generalize (u.map PhysUnit.scale).getD 1 = c at hc h
  have := congrArg (fun v => FV.fin c⁻¹ * v) h
  simp only [fin_mul_fin_mul (inv_pos.mpr hc), inv_mul_cancel₀ hc.ne'] at this
  have one : ∀ v : FV K, FV.fin (1:K) * v = v := by
    intro v
    cases v with
    | fin x => rw [FV.fin_mul_fin, one_mul]
    | pinf => exact scale_pinf one_pos
    | ninf => exact scale_ninf one_pos
    | nan => rfl
  rwa [one, one] at this

theorem physical_injective {us : List (Option (PhysUnit K))} (hu : ∀ un, some un ∈ us → 0 < un.scale) {a b : List (List (FV K))}
    (ha : ∀ r ∈ a, r.length = us.length) (hb : ∀ r ∈ b, r.length = us.length) (h : a.map (List.zipWith si us) = b.map (List.zipWith si us)) : a = b := by
  have row : ∀ (us : List (Option (PhysUnit K))) (r r' : List (FV K)), (∀ un, some un ∈ us → 0 < un.scale) → r.length = us.length → r'.length = us.length →
      List.zipWith si us r = List.zipWith si us r' → r = r' := by
    intro us
    induction us with
    | nil =>
      intro r r' _ h1 h2 _
      rw [List.eq_nil_of_length_eq_zero h1, List.eq_nil_of_length_eq_zero h2]
    | cons u us ih =>
      intro r r' hu h1 h2 h3
      match r, r', h1, h2 with
      | x :: r, y :: r', h1, h2 =>
        simp only [List.zipWith_cons_cons, List.cons.injEq] at h3
        rw [si_injective (fun un h => hu un (by simp [h])) h3.1,
          ih r r' (fun un h => hu un (by simp [h])) (by simpa using h1) (by simpa using h2) h3.2]
  induction a generalizing b with
  | nil => cases b with
    | nil => rfl
    | cons _ _ => simp at h
  | cons r a ih =>
    cases b with
    | nil => simp at h
    | cons r' b =>
      simp only [List.map_cons, List.cons.injEq] at h
      rw [row us r r' hu (ha r (by simp)) (hb r' (by simp)) h.1, ih (fun r hr => ha r (by simp [hr])) (fun r hr => hb r (by simp [hr])) h.2]

/-- **C14** (units) For tables whose columns have the same units in all tables, `compare_irf_cuts` is True exactly when there is at most one table, or all tables are physically
equal and hold no NaN. -/
theorem C14_same_units (us : List (Option (PhysUnit K))) (hu : ∀ un, some un ∈ us → 0 < un.scale) (cuts : List (QTab K)) (hus : ∀ t ∈ cuts, t.units = us)
    (hr : ∀ t ∈ cuts, ∀ r ∈ t.rows, r.length = us.length) (hn : ∀ t ∈ cuts, ∀ t' ∈ cuts, t.rows.length = t'.rows.length) :
    compareIrfCutsQ cuts = true ↔
      cuts.length ≤ 1 ∨ ((∀ a ∈ cuts, ∀ b ∈ cuts, a.physical = b.physical) ∧ ∀ a ∈ cuts, ∀ r ∈ a.rows, ∀ c ∈ r, c ≠ FV.nan) := by
  unfold compareIrfCutsQ
  rw [C14_compare_irf_cuts, List.length_map]
  · refine or_congr Iff.rfl (and_congr ?_ ?_)
    · simp only [List.forall_mem_map]
      constructor
      · intro h a ha b hb
        unfold QTab.physical
        rw [hus a ha, hus b hb, h a ha b hb]
      · intro h a ha b hb
        have := h a ha b hb
        unfold QTab.physical at this
        rw [hus a ha, hus b hb] at this
        exact physical_injective hu (hr a ha) (hr b hb) this
    · simp only [List.forall_mem_map]
  · simp only [List.forall_mem_map]
    intro a ha b hb
    exact ⟨hn a ha b hb, fun i h1 h2 => (hr a ha _ (List.getElem_mem h1)).trans (hr b hb _ (List.getElem_mem h2)).symm⟩

/-- **C14** (deviation) Units are not compared: tables with the same (NaN-free) numbers count as the same cuts whatever their units, and a table written in other units counts
as another cut as soon as a finite non-zero cell is in a column whose unit has another size. -/
theorem C14_units_ignored (rows : List (List (FV K))) (us us' : List (Option (PhysUnit K))) :
    ((∀ r ∈ rows, ∀ c ∈ r, c ≠ FV.nan) → compareIrfCutsQ [⟨us, rows⟩, ⟨us', rows⟩] = true) ∧
    ∀ (t' : QTab K), t'.units = us' → t'.physical = (⟨us, rows⟩ : QTab K).physical → t'.rows.length = rows.length →
      (∀ r ∈ rows, r.length = us.length) → (∀ r ∈ t'.rows, r.length = us.length) → us'.length = us.length →
      (∃ r ∈ rows, ∃ (j : ℕ) (un un' : PhysUnit K) (x : K), us[j]? = some (some un) ∧ us'[j]? = some (some un') ∧ un.scale ≠ un'.scale ∧ r[j]? = some (.fin x) ∧ x ≠ 0) →
      compareIrfCutsQ [⟨us, rows⟩, t'] = false := by
  have shape : ∀ a b : List (List (FV K)), a.length = b.length → (∀ r ∈ a, r.length = us.length) → (∀ r ∈ b, r.length = us.length) → SameShape a b :=
    fun a b h h1 h2 => ⟨h, fun i i1 i2 => (h1 _ (List.getElem_mem i1)).trans (h2 _ (List.getElem_mem i2)).symm⟩
  constructor
  · intro hn
    unfold compareIrfCutsQ
    simp only [List.map_cons, List.map_nil]
    rw [C14_compare_irf_cuts]
    · right
      simp only [List.mem_cons, List.not_mem_nil, or_false, or_self]
      exact ⟨fun a ha b hb => ha.trans hb.symm, fun a ha => ha ▸ hn⟩
    · simp only [List.mem_cons, List.not_mem_nil, or_false, or_self]
      rintro a rfl b rfl
      exact ⟨rfl, fun _ _ _ => rfl⟩
  · rintro ⟨u, rows'⟩ hu' hphys hlen h1 h2 hl ⟨r, hr, j, un, un', x, hj, hj', hne, hx, hx0⟩
    obtain rfl : u = us' := hu'
    unfold compareIrfCutsQ
    simp only [List.map_cons, List.map_nil]
    rw [Bool.eq_false_iff, ne_eq, C14_compare_irf_cuts]
    · rintro (h | ⟨h, -⟩)
      · simp at h
      · have heq : rows' = rows := h rows' (by simp) rows (by simp)
        subst heq
        unfold QTab.physical at hphys
        have hrow := List.map_inj_left.mp hphys r hr
        have hcell := congrArg (fun l => l[j]?) hrow
        simp only [List.getElem?_zipWith, hj, hj', hx] at hcell
        simp only [Option.some.injEq, si, Option.map_some, Option.getD_some, FV.fin_mul_fin, FV.fin.injEq] at hcell
        exact hne (mul_right_cancel₀ hx0 hcell).symm
    · simp only [List.mem_cons, List.not_mem_nil, or_false]
      rintro a (rfl | rfl) b (rfl | rfl)
      · exact shape _ _ rfl h1 h1
      · exact shape _ _ hlen.symm h1 h2
      · exact shape _ _ hlen h2 h1
      · exact shape _ _ rfl h2 h2

/-- one degree and one arc minute as units of an angle (in degree instead of radian) -/
def exDeg : PhysUnit ℚ := ⟨⟨0, 0, 0, 1⟩, 1⟩
/-- an arc minute -/
def exArcmin : PhysUnit ℚ := ⟨⟨0, 0, 0, 1⟩, 1 / 60⟩

theorem ex_increasing : Increasing ([.fin 0, .fin 1, .pinf] : List (FV ℚ)) := by
  constructor
  · intro e he; simp at he; rcases he with rfl | rfl | rfl <;> simp
  · simp [FV.le]

/-- Values in degree, fill value 18 arc minutes, lower bound 0.02 degree: accepted, and equal to the call with 0.3 degree; the same events in arc
minutes give the same cuts. A plain fill value is refused. -/
example : ∃ t, percentileCutQ exDeg [(.fin (1 / 10), .fin 0), (.fin (2 / 10), .fin 0)] [.fin 0, .fin 1, .pinf] ⟨some exArcmin, .fin 18⟩ 50
      (some ⟨some exDeg, .fin (2 / 100)⟩) none 2 = .ok (t, some exDeg) ∧
    percentileCutQ exDeg [(.fin (1 / 10), .fin 0), (.fin (2 / 10), .fin 0)] [.fin 0, .fin 1, .pinf] ⟨some exDeg, .fin (3 / 10)⟩ 50
      (some ⟨some exDeg, .fin (2 / 100)⟩) none 2 = .ok (t, some exDeg) ∧
    (∃ t', percentileCutQ exArcmin ([(.fin (1 / 10), .fin 0), (.fin (2 / 10), .fin 0)].map fun e => (FV.fin (1 / (1 / 60)) * e.1, e.2))
      [.fin 0, .fin 1, .pinf] ⟨some exArcmin, .fin 18⟩ 50 (some ⟨some exDeg, .fin (2 / 100)⟩) none 2 = .ok (t', some exArcmin) ∧
      t'.cut.map (si (some exArcmin)) = t.cut.map (si (some exDeg))) ∧
    percentileCutQ exDeg [(.fin (1 / 10), .fin 0), (.fin (2 / 10), .fin 0)] [.fin 0, .fin 1, .pinf] ⟨none, .fin (3 / 10)⟩ 50
      (some ⟨some exDeg, .fin (2 / 100)⟩) none 2 = .error .unitsError := by
  have h := C113_accepted exDeg (by norm_num [exDeg]) [(.fin (1 / 10), .fin 0), (.fin (2 / 10), .fin 0)] [.fin 0, .fin 1, .pinf]
    ⟨some exArcmin, .fin 18⟩ 50 (some ⟨some exDeg, .fin (2 / 100)⟩) none 2 ex_increasing (by simp) (by norm_num) (by norm_num)
  obtain ⟨t, ht⟩ := h.1 ⟨rfl, by intro q hq; simp at hq; subst hq; rfl, by simp⟩
    ⟨_, List.mem_cons_self, 0, by simp, by simp [FV.le], by simp [FV.lt]⟩
  have h2 := C113_argument_units exDeg (by norm_num [exDeg]) [(.fin (1 / 10), .fin 0), (.fin (2 / 10), .fin 0)] [.fin 0, .fin 1, .pinf]
    ⟨some exArcmin, .fin 18⟩ ⟨some exDeg, .fin (3 / 10)⟩ 50 (some ⟨some exDeg, .fin (2 / 100)⟩) (some ⟨some exDeg, .fin (2 / 100)⟩) none none 2
    ⟨rfl, by simp [si, exArcmin, exDeg]; norm_num⟩ ⟨rfl, rfl⟩ trivial
  obtain ⟨t', h3, -, -, -, -, h4⟩ := C113_value_unit exDeg exArcmin (by norm_num [exDeg]) (by norm_num [exArcmin]) rfl _ _ _ _ _ _ _
    ex_increasing (by simp) (by norm_num) (by norm_num) (by intro e he; simp at he; rcases he with rfl | rfl <;> simp) t _ ht
  refine ⟨t, ht, h2.symm.trans ht, ⟨t', h3, h4⟩, ?_⟩
  exact (C113_accepted exDeg (by norm_num [exDeg]) [] [.fin 0, .fin 1, .pinf]
    ⟨none, .fin (3 / 10)⟩ 50 (some ⟨some exDeg, .fin (2 / 100)⟩) none 2 ex_increasing (by simp) (by norm_num) (by norm_num)).2
    (by rintro ⟨h, -⟩; exact absurd h (by decide)) _ _ _

/-- Multiplicities 2 and 5: the median 3.5 is stored as 3, so that for `ge` a value of 3 passes. -/
example : truncZ (7 / 2 : ℚ) = 3 ∧ truncZ (-7 / 2 : ℚ) = -3 ∧
    (percentileCutInt ([(2, .fin 0), (5, .fin 0)] : List (ℤ × FV ℚ)) [.fin 0, .fin 1, .pinf] (1 / 2) 50 none none 1).toOption.map (·.cut) =
      some [3, 0] := by
  refine ⟨by norm_num [truncZ, Int.floor_eq_iff], by rw [truncZ, if_neg (by norm_num), Int.ceil_eq_iff]; norm_num, ?_⟩
  decide +kernel

/-- cuts of 1 deg and of 1 arcmin count as the same, 1 deg and 60 arcmin as different -/
example : compareIrfCutsQ [⟨[some exDeg], [[.fin 1]]⟩, ⟨[some exArcmin], [[.fin 1]]⟩] = true ∧
    compareIrfCutsQ [⟨[some exDeg], [[.fin 1]]⟩, ⟨[some exArcmin], [[.fin 60]]⟩] = false ∧
    (⟨[some exDeg], [[.fin 1]]⟩ : QTab ℚ).physical = (⟨[some exArcmin], [[.fin 60]]⟩ : QTab ℚ).physical := by
  refine ⟨by decide +kernel, by decide +kernel, ?_⟩
  simp [QTab.physical, si, exDeg, exArcmin, FV.fin_mul_fin]

end Pyirf.Cuts
