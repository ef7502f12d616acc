import Verif.Interpolation.AreaProps
import Verif.Interpolation.FacetProps

/-!
# C64, C100, C101, C102: rad max tables
-/
set_option linter.unusedSectionVars false
set_option linter.unusedSimpArgs false

namespace Pyirf.Interpolation
open Pyirf Pyirf.Np

/-! ## Construction -/

theorem radMaxInit_ok {m : ℕ} {argsort : List ℝ → List ℕ} {delaunay : Grid → Except Err (List (FV ℝ) → Bool)} {g : GridArg} {rows : List (Fin m → ℝ)} {fill : FillArg}
    {interp : ClsArg (Fin m → FV ℝ) (Fin m → FV ℝ)} {extrap : Option (ClsArg (Fin m → FV ℝ) (Fin m → FV ℝ))} {ni nx : Bool} {r : RadMax m}
    (h : radMaxInit argsort delaunay g rows fill interp extrap ni nx = .ok r) :
    ∃ v, parametrizedInit argsort delaunay g (.rows (rows.map fun r c => .fin (r c))) interp extrap = .ok r.est ∧ fillVal rows fill = .ok v ∧ r.params = rows ∧
      r.fill = handlesFill v ∧ r.nnInterp = ni ∧ r.nnExtrap = nx ∧ ¬ ((handlesFill v).isSome ∧ 3 ≤ r.est.dim) := by
  unfold radMaxInit at h
  split at h
  · cases h
  · next est he =>
    split at h
    · cases h
    · next v hv =>
      split at h
      · cases h
      · next hd =>
        cases h
        exact ⟨v, he, hv, rfl, rfl, rfl, rfl, hd⟩

/-- **C64** The fill value: none if it was not asked for (or is zero); the given number; or the largest entry of all tables. -/
theorem C64_fill_value {m : ℕ} (argsort : List ℝ → List ℕ) (delaunay : Grid → Except Err (List (FV ℝ) → Bool)) (g : GridArg) (rows : List (Fin m → ℝ)) (fill : FillArg)
    (interp : ClsArg (Fin m → FV ℝ) (Fin m → FV ℝ)) (extrap : Option (ClsArg (Fin m → FV ℝ) (Fin m → FV ℝ))) (ni nx : Bool) (r : RadMax m)
    (h : radMaxInit argsort delaunay g rows fill interp extrap ni nx = .ok r) :
    (fill = .none → r.fill = none) ∧ (∀ v, fill = .value v → r.fill = if v = 0 then none else some v) ∧
    (fill = .infer → ∃ v, (∃ a ∈ rows, ∃ c, a c = v) ∧ (∀ a ∈ rows, ∀ c, a c ≤ v) ∧ r.fill = if v = 0 then none else some v) := by
  obtain ⟨w, _, hv, _, hf, _⟩ := radMaxInit_ok h
  refine ⟨?_, ?_, ?_⟩
  · rintro rfl
    cases hv
    rw [hf]; rfl
  · rintro v rfl
    cases hv
    rw [hf]; rfl
  · rintro rfl
    unfold fillVal at hv
    simp only at hv
    split at hv
    · cases hv
    · next v hm =>
      cases hv
      obtain ⟨h1, h2⟩ := max?_spec hm
      rw [List.mem_flatMap] at h1
      obtain ⟨a, ha, hav⟩ := h1
      rw [List.mem_ofFn] at hav
      refine ⟨v, ⟨a, ha, hav⟩, fun b hb c => h2 _ (List.mem_flatMap.mpr ⟨b, hb, by rw [List.mem_ofFn]; exact ⟨c, rfl⟩⟩), by rw [hf]; rfl⟩

/-- **C64** Fill values in three or more dimensions are refused. -/
theorem C64_dimensions {m : ℕ} (argsort : List ℝ → List ℕ) (delaunay : Grid → Except Err (List (FV ℝ) → Bool)) (g : GridArg) (rows : List (Fin m → ℝ)) (v : ℝ) (hv : v ≠ 0)
    (interp : ClsArg (Fin m → FV ℝ) (Fin m → FV ℝ)) (extrap : Option (ClsArg (Fin m → FV ℝ) (Fin m → FV ℝ))) (ni nx : Bool) (est : Estimator (Fin m → FV ℝ))
    (he : parametrizedInit argsort delaunay g (.rows (rows.map fun r c => .fin (r c))) interp extrap = .ok est) :
    (3 ≤ est.dim → radMaxInit argsort delaunay g rows (.value v) interp extrap ni nx = .error .valueError) ∧
    (est.dim < 3 → radMaxInit argsort delaunay g rows (.value v) interp extrap ni nx = .ok ⟨est, rows, some v, ni, nx⟩) := by
  have hh : handlesFill (some v) = some v := by unfold handlesFill; simp only; rw [if_neg hv]
  unfold radMaxInit
  rw [he]
  simp only [fillVal, hh, Option.isSome_some, true_and]
  refine ⟨fun h => by rw [if_pos h], fun h => by rw [if_neg (by omega)]⟩

/-! ## Cells -/

/-- A cell of the estimate without fill values: clipped to `[0, fill]`; NaN stays. -/
def Clipped (v : ℝ) (x out : FV ℝ) : Prop :=
  (∀ y, x = .fin y → out = .fin (min (max y 0) v)) ∧ (x = .nan → out = .nan) ∧ (x = .pinf → out = .fin v) ∧ (x = .ninf → out = .fin 0)

theorem applyFill_true (v : ℝ) (x : FV ℝ) : applyFill v true x = .fin v := by simp [applyFill, FV.gt]

theorem applyFill_clipped {v : ℝ} (hv : 0 < v) (x : FV ℝ) : Clipped v x (applyFill v false (clip0 x)) := by
  refine ⟨?_, ?_, ?_, ?_⟩
  · rintro y rfl
    unfold clip0 applyFill
    simp only [FV.lt_fin, decide_eq_true_eq, FV.gt]
    by_cases h : y < 0
    · rw [if_pos h, max_eq_right h.le, min_eq_left hv.le]
      simp [hv.le, not_lt.mpr hv.le]
    · rw [if_neg h, max_eq_left (not_lt.mp h)]
      simp only [FV.lt_fin, decide_eq_true_eq, Bool.false_eq_true, if_false]
      by_cases h2 : v < y
      · rw [if_pos h2, min_eq_right h2.le]
      · rw [if_neg h2, min_eq_left (not_lt.mp h2)]
  · rintro rfl; simp [clip0, applyFill, FV.gt]
  · rintro rfl; simp [clip0, applyFill, FV.gt, FV.lt]
  · rintro rfl; simp [clip0, applyFill, FV.gt, FV.lt, not_lt.mpr hv.le]

/-- **C64** Without fill values every cell of the estimate is clipped at 0, in one and in two dimensions. -/
theorem C64_no_fill {m : ℕ} (r : RadMax m) (hf : r.fill = none) (target : TargetArg) (x : Fin m → FV ℝ) (hx : (r.est.call target).result = .ok x) :
    ∃ out, (∀ t, radMaxCall1D r target t = .ok out) ∧ (∀ argsort T findSimplex t, radMaxCall2D r argsort T findSimplex target t = .ok out) ∧
      ∀ c, (∀ y, x c = .fin y → out c = .fin (max y 0)) ∧ (x c = .nan → out c = .nan) := by
  refine ⟨fun c => clip0 (x c), fun t => ?_, fun _ _ _ _ => ?_, fun c => ⟨fun y hy => ?_, fun hy => by simp [hy, clip0]⟩⟩
  · unfold radMaxCall1D; rw [hx]; simp only [hf]
  · unfold radMaxCall2D; rw [hx]; simp only [hf]
  · simp only [hy, clip0, FV.lt_fin, decide_eq_true_eq]
    by_cases h : y < 0
    · rw [if_pos h, max_eq_right h.le]
    · rw [if_neg h, max_eq_left (not_lt.mp h)]

/-- **C64** Exceptions of the estimator itself are passed on. -/
theorem C64_errors {m : ℕ} (r : RadMax m) (target : TargetArg) (err : Err) (h : (r.est.call target).result = .error err) :
    (∀ t, radMaxCall1D r target t = .error err) ∧ ∀ argsort T findSimplex t, radMaxCall2D r argsort T findSimplex target t = .error err := by
  refine ⟨fun t => ?_, fun _ _ _ _ => ?_⟩
  · unfold radMaxCall1D; rw [h]
  · unfold radMaxCall2D; rw [h]

/-! ## One dimension -/

theorem filter_le_length {xs : List ℝ} (hs : xs.Pairwise (· < ·)) {i : ℕ} (hi : i + 1 < xs.length) {t : ℝ} (h1 : xs[i] ≤ t) (h2 : t < xs[i + 1]) :
    (xs.filter fun x => decide (x ≤ t)).length = i + 1 := by
  have hsplit : xs = xs.take (i + 1) ++ xs.drop (i + 1) := (List.take_append_drop _ _).symm
  have ha : (xs.take (i + 1)).filter (fun x => decide (x ≤ t)) = xs.take (i + 1) := by
    rw [List.filter_eq_self]
    intro a ha
    obtain ⟨k, hk, rfl⟩ := List.getElem_of_mem ha
    rw [List.length_take] at hk
    rw [List.getElem_take, decide_eq_true_eq]
    rcases Nat.lt_or_ge k i with h | h
    · exact ((List.pairwise_iff_getElem.mp hs k i (by omega) (by omega) h).le).trans h1
    · have : k = i := by omega
      subst this; exact h1
  have hb : (xs.drop (i + 1)).filter (fun x => decide (x ≤ t)) = [] := by
    rw [List.filter_eq_nil_iff]
    intro a ha
    obtain ⟨k, hk, rfl⟩ := List.getElem_of_mem ha
    rw [List.length_drop] at hk
    rw [List.getElem_drop, decide_eq_true_eq, not_le]
    rcases Nat.eq_zero_or_pos k with h | h
    · subst h; exact h2
    · exact h2.trans (List.pairwise_iff_getElem.mp hs (i + 1) (i + 1 + k) (by omega) (by omega) (by omega))
  conv_lhs => rw [hsplit, List.filter_append, ha, hb]
  simp only [List.append_nil, List.length_take]
  omega

theorem filter_le_all {xs : List ℝ} {t : ℝ} (h : ∀ x ∈ xs, x ≤ t) : (xs.filter fun x => decide (x ≤ t)).length = xs.length := by
  rw [List.filter_eq_self.mpr (by simpa using h)]

theorem sorted_min_max {xs : List ℝ} (hs : xs.Pairwise (· < ·)) (h2 : 2 ≤ xs.length) :
    xs.min? = some (xs[0]'(by omega)) ∧ xs.max? = some (xs[xs.length - 1]'(by omega)) := by
  have hle : ∀ i j (hi : i < xs.length) (hj : j < xs.length), i ≤ j → xs[i] ≤ xs[j] := by
    intro i j hi hj hij
    rcases Nat.lt_or_ge i j with h | h
    · exact (List.pairwise_iff_getElem.mp hs i j hi hj h).le
    · have : i = j := by omega
      subst this; exact le_rfl
  constructor
  · rw [List.min?_eq_some_iff]
    refine ⟨List.getElem_mem _, fun b hb => ?_⟩
    obtain ⟨k, hk, rfl⟩ := List.getElem_of_mem hb
    exact hle 0 k (by omega) hk (by omega)
  · rw [List.max?_eq_some_iff]
    refine ⟨List.getElem_mem _, fun b hb => ?_⟩
    obtain ⟨k, hk, rfl⟩ := List.getElem_of_mem hb
    exact hle k _ hk (by omega) (by omega)

/-- A sorted one-dimensional grid is kept as it is. -/
theorem radMax_grid_sorted {m : ℕ} {argsort : List ℝ → List ℕ} (ha : IsArgsort argsort) {delaunay : Grid → Except Err (List (FV ℝ) → Bool)} {xs : List ℝ} (hs : xs.Pairwise (· < ·))
    {rows : List (Fin m → ℝ)} {fill : FillArg} {interp : ClsArg (Fin m → FV ℝ) (Fin m → FV ℝ)} {extrap : Option (ClsArg (Fin m → FV ℝ) (Fin m → FV ℝ))} {ni nx : Bool} {r : RadMax m}
    (h : radMaxInit argsort delaunay (.oneD xs) rows fill interp extrap ni nx = .ok r) :
    2 ≤ xs.length ∧ rows.length = xs.length ∧ r.est.dim = 1 ∧ r.est.grid.map coord = xs ∧ r.params = rows ∧ r.nnInterp = ni ∧ r.nnExtrap = nx := by
  obtain ⟨v, hp, _, hr, _, hni, hnx, _⟩ := radMaxInit_ok h
  obtain ⟨d, pts, hull, rows', pts', rows'', i, x, h1, h2, h3, h4, h5, h6, h7⟩ := (C60_parametrized _ _ _ _ _ _ _).mp hp
  obtain ⟨hlt, hg⟩ := h1
  rcases hg with ⟨ys, hy, rfl, rfl⟩ | hg
  · cases hy
    cases h3
    rw [h7]
    simp only [List.length_map] at hlt h4
    refine ⟨hlt, h4, rfl, ?_, hr, hni, hnx⟩
    unfold OrderedGrid sortRows at h5
    rw [if_pos rfl] at h5
    have e1 := (Prod.mk.inj h5).1
    have hc : (xs.map fun x => [x]).map coord = xs := by simp [List.map_map, Function.comp_def, coord]
    rw [hc] at e1
    obtain ⟨p1, p2⟩ := ha xs
    show pts'.map coord = xs
    rw [← e1, takeRows_map, hc]
    exact (takeRows_perm p1).eq_of_pairwise (fun a b _ _ h1 h2 => le_antisymm h1 h2) p2 (hs.imp fun h => le_of_lt h)
  · cases hg

/-- The two neighboring grid points with the indices `i` and `i + 1`: those around the target, or the first or the last two for a target outside. -/
def Neighbors (xs : List ℝ) (t : ℝ) (i : ℕ) : Prop :=
  ∃ _ : i + 1 < xs.length, (xs[i] ≤ t ∧ t < xs[i + 1]) ∨ (t < xs[i] ∧ i = 0) ∨ (xs[i + 1] < t ∧ i + 2 = xs.length)

theorem segmentInds_neighbors {xs : List ℝ} (hs : xs.Pairwise (· < ·)) {t : ℝ} {i : ℕ} (hn : Neighbors xs t i) (h2 : 2 ≤ xs.length) :
    segmentInds xs xs.length (xs[0]'(by omega)) (xs[xs.length - 1]'(by omega)) t = (i, i + 1) := by
  obtain ⟨hi, h⟩ := hn
  have hlt : ∀ i j (hi : i < xs.length) (hj : j < xs.length), i < j → xs[i] < xs[j] := List.pairwise_iff_getElem.mp hs
  have hle : ∀ i j (hi : i < xs.length) (hj : j < xs.length), i ≤ j → xs[i] ≤ xs[j] := by
    intro i j hi hj hij
    rcases Nat.lt_or_ge i j with h | h
    · exact (hlt i j hi hj h).le
    · have : i = j := by omega
      subst this; exact le_rfl
  unfold segmentInds
  rcases h with ⟨h1, h3⟩ | ⟨h1, rfl⟩ | ⟨h1, h3⟩
  · rw [if_neg (not_lt.mpr ((hle 0 i (by omega) (by omega) (by omega)).trans h1)), if_neg (not_lt.mpr (h3.le.trans (hle (i + 1) _ hi (by omega) (by omega)))),
      filter_le_length hs hi h1 h3]
    rfl
  · rw [if_pos h1]
  · have he : xs.length - 1 = i + 1 := by omega
    have h0 : xs[0]'(by omega) < t := (hle 0 (i + 1) (by omega) hi (by omega)).trans_lt h1
    rw [if_neg (not_lt.mpr h0.le)]
    simp only [he]
    rw [if_pos h1]
    exact Prod.ext (by simp; omega) (by simp)

/-- **C64** One dimension, grid points given in increasing order: a cell is the fill value if one of the two neighboring templates is filled there, and otherwise the
estimate clipped to `[0, fill]`. -/
theorem C64_one_dimension {m : ℕ} (argsort : List ℝ → List ℕ) (ha : IsArgsort argsort) (delaunay : Grid → Except Err (List (FV ℝ) → Bool)) (xs : List ℝ) (hs : xs.Pairwise (· < ·))
    (rows : List (Fin m → ℝ)) (fill : FillArg) (interp : ClsArg (Fin m → FV ℝ) (Fin m → FV ℝ)) (extrap : Option (ClsArg (Fin m → FV ℝ) (Fin m → FV ℝ))) (ni nx : Bool) (r : RadMax m)
    (h : radMaxInit argsort delaunay (.oneD xs) rows fill interp extrap ni nx = .ok r) (v : ℝ) (hv : 0 < v) (hf : r.fill = some v)
    (target : TargetArg) (t : ℝ) (x : Fin m → FV ℝ) (hx : (r.est.call target).result = .ok x) (hni : ni = false) (hnx : nx = true → (∃ a ∈ xs, a ≤ t) ∧ ∃ a ∈ xs, t ≤ a)
    (i : ℕ) (hn : Neighbors xs t i) :
    ∃ a b out, rows[i]? = some a ∧ rows[i + 1]? = some b ∧ radMaxCall1D r target t = .ok out ∧
      ∀ c, ((v ≤ a c ∨ v ≤ b c) → out c = .fin v) ∧ (a c < v → b c < v → Clipped v (x c) (out c)) := by
  obtain ⟨h2, hl, hd, hg, hr, hni', hnx'⟩ := radMax_grid_sorted ha hs h
  obtain ⟨hi, _⟩ := id hn
  obtain ⟨hmin, hmax⟩ := sorted_min_max hs h2
  have e1 : rows[i]? = some (rows[i]'(by omega)) := List.getElem?_eq_getElem _
  have e2 : rows[i + 1]? = some (rows[i + 1]'(by omega)) := List.getElem?_eq_getElem _
  refine ⟨_, _, fun c => applyFill v (decide (v ≤ rows[i] c ∨ v ≤ rows[i + 1] c)) (clip0 (x c)), e1, e2, ?_, fun c => ⟨fun hc => ?_, fun h1 h2 => ?_⟩⟩
  · unfold radMaxCall1D
    rw [hx]
    simp only [hf]
    rw [hg, hmin, hmax]
    simp only
    rw [if_neg]
    · have hseg : segmentInds xs r.params.length (xs[0]'(by omega)) (xs[xs.length - 1]'(by omega)) t = (i, i + 1) := by
        have hpl : r.params.length = xs.length := by rw [hr, hl]
        rw [hpl]
        exact segmentInds_neighbors hs hn h2
      rw [hseg, hr]
      simp only [e1, e2]
    · rw [hni', hnx', hni]
      rintro (⟨ho, hx'⟩ | hc)
      · obtain ⟨⟨a, ha1, ha2⟩, ⟨b, hb1, hb2⟩⟩ := hnx hx'
        have m1 := (min?_spec hmin).2 a ha1
        have m2 := (max?_spec hmax).2 b hb1
        rcases ho with ho | ho
        · exact absurd (m1.trans ha2) (not_le.mpr ho)
        · exact absurd (hb2.trans m2) (not_le.mpr ho)
      · cases hc
  · simp only [hc, decide_true]; exact applyFill_true v _
  · have : ¬ (v ≤ rows[i] c ∨ v ≤ rows[i + 1] c) := by push Not; exact ⟨h1, h2⟩
    simp only [this, decide_false]
    exact applyFill_clipped hv _

/-- **C64** Where a nearest neighbor searcher gave the estimate, fill values are not handled: the estimate is clipped at 0 only. -/
theorem C64_nearest_neighbor {m : ℕ} (r : RadMax m) (v : ℝ) (hf : r.fill = some v) (target : TargetArg) (x : Fin m → FV ℝ) (hx : (r.est.call target).result = .ok x) (hg : r.est.grid ≠ []) :
    (∀ t, (r.nnInterp = true ∨ (r.nnExtrap = true ∧ ¬ ((∃ p ∈ r.est.grid, coord p ≤ t) ∧ ∃ p ∈ r.est.grid, t ≤ coord p))) → radMaxCall1D r target t = .ok fun c => clip0 (x c)) ∧
    (∀ argsort T findSimplex t, (r.nnInterp = true ∨ (r.nnExtrap = true ∧ findSimplex t = none)) → radMaxCall2D r argsort T findSimplex target t = .ok fun c => clip0 (x c)) := by
  constructor
  · intro t hn
    have hne : r.est.grid.map coord ≠ [] := by simpa using hg
    obtain ⟨lo, hlo⟩ : ∃ lo, (r.est.grid.map coord).min? = some lo := by
      cases h : (r.est.grid.map coord).min? with
      | none => exact absurd (List.min?_eq_none_iff.mp h) hne
      | some lo => exact ⟨lo, rfl⟩
    obtain ⟨hi, hhi⟩ : ∃ hi, (r.est.grid.map coord).max? = some hi := by
      cases h : (r.est.grid.map coord).max? with
      | none => exact absurd (List.max?_eq_none_iff.mp h) hne
      | some lo => exact ⟨lo, rfl⟩
    obtain ⟨l1, l2⟩ := min?_spec hlo
    obtain ⟨u1, u2⟩ := max?_spec hhi
    unfold radMaxCall1D
    rw [hx]
    simp only [hf, hlo, hhi]
    rw [if_pos]
    rcases hn with hn | ⟨hn, ho⟩
    · exact Or.inr hn
    · refine Or.inl ⟨?_, hn⟩
      by_contra hc
      push Not at hc
      refine ho ⟨?_, ?_⟩
      · obtain ⟨p, hp, rfl⟩ := List.mem_map.mp l1; exact ⟨p, hp, hc.1⟩
      · obtain ⟨p, hp, rfl⟩ := List.mem_map.mp u1; exact ⟨p, hp, hc.2⟩
  · intro argsort T fs t hn
    unfold radMaxCall2D
    rw [hx]
    simp only [hf]
    rw [if_pos]
    rcases hn with hn | ⟨hn, ho⟩
    · exact Or.inr hn
    · exact Or.inl ⟨by rw [ho]; rfl, hn⟩

/-! ## Two dimensions -/

/-- **C64** Two dimensions: `p` are the templates at the vertices of the simplex with the target (or the one nearest to it). A cell is the fill value if two or three
of them are filled, the smallest not filled one if exactly one is filled, and the clipped estimate if none is. -/
theorem C64_two_dimensions {m : ℕ} (r : RadMax m) (v : ℝ) (hv : 0 < v) (hf : r.fill = some v) (target : TargetArg) (t : Pt 0) (x : Fin m → FV ℝ) (hx : (r.est.call target).result = .ok x)
    (argsort : List (FV ℝ × FV ℝ) → ℕ) (T : Triangulation) (findSimplex : Pt 0 → Option ℕ) (hni : r.nnInterp = false) (hnx : findSimplex t = none → r.nnExtrap = false)
    (i : ℕ) (hi : findSimplex t = some i ∨ (findSimplex t = none ∧ (∃ l, target = .oneD l) ∧ findNearestSimplex argsort T t = .ok i))
    (s : Fin 3 → Fin T.points.length) (hs : T.simplices[i]? = some s) (p : Fin 3 → Fin m → ℝ) (hp : ∀ j, r.params[(s j).val]? = some (p j)) :
    ∃ out, radMaxCall2D r argsort T findSimplex target t = .ok out ∧ ∀ c,
      (2 ≤ (Finset.univ.filter fun j => v ≤ p j c).card → out c = .fin v) ∧
      ((Finset.univ.filter fun j => v ≤ p j c).card = 1 → ∃ y, out c = .fin y ∧ (∃ j, p j c < v ∧ p j c = y) ∧ ∀ j, p j c < v → y ≤ p j c) ∧
      ((∀ j, p j c < v) → Clipped v (x c) (out c)) := by
  refine ⟨fun c => combine3 v (p 0 c) (p 1 c) (p 2 c) (clip0 (x c)), ?_, fun c => ?_⟩
  · unfold radMaxCall2D
    rw [hx]
    simp only [hf]
    rw [if_neg]
    · have hsimp : locateSimplex argsort T findSimplex target t = Except.ok i := by
        unfold locateSimplex
        rcases hi with h | ⟨h, ⟨l, rfl⟩, h3⟩
        · rw [h]
        · rw [h]; exact h3
      rw [hsimp]
      simp only [hs, hp]
    · rw [hni]
      rintro (⟨ho, hx'⟩ | hc)
      · rw [hnx (by simpa using ho)] at hx'; cases hx'
      · cases hc
  · have hcard : (Finset.univ.filter fun j : Fin 3 => v ≤ p j c).card = (if v ≤ p 0 c then 1 else 0) + (if v ≤ p 1 c then 1 else 0) + (if v ≤ p 2 c then 1 else 0) := by
      rw [Finset.card_filter, Fin.sum_univ_three]
    rw [hcard]
    refine ⟨fun h => ?_, fun h => ?_, fun h => ?_⟩
    · unfold combine3
      simp only
      generalize hN : (if v ≤ p 0 c then 1 else 0) + (if v ≤ p 1 c then 1 else 0) + (if v ≤ p 2 c then 1 else 0) = N at h ⊢
      have h1 : N ≠ 1 := by omega
      have h0 : N ≠ 0 := by omega
      rw [if_neg h1, if_neg h1, if_neg h0]
      have : (if N = 2 then true else if N = 3 then true else true) = true := by split_ifs <;> rfl
      rw [this]
      exact applyFill_true v _
    · unfold combine3
      simp only
      rw [h]
      simp only [if_true]
      have key : min (min (p 0 c) (p 1 c)) (p 2 c) < v := by
        by_contra hc
        rw [not_lt, le_min_iff, le_min_iff] at hc
        rw [if_pos hc.1.1, if_pos hc.1.2, if_pos hc.2] at h
        omega
      refine ⟨min (min (p 0 c) (p 1 c)) (p 2 c), ?_, ?_, ?_⟩
      · simp [applyFill, FV.gt, not_lt.mpr key.le]
      · rcases min_choice (min (p 0 c) (p 1 c)) (p 2 c) with e | e
        · rcases min_choice (p 0 c) (p 1 c) with e' | e'
          · exact ⟨0, by rw [e, e'] at key; exact key, by rw [e, e']⟩
          · exact ⟨1, by rw [e, e'] at key; exact key, by rw [e, e']⟩
        · exact ⟨2, by rw [e] at key; exact key, by rw [e]⟩
      · intro j _
        fin_cases j
        · exact (min_le_left _ _).trans (min_le_left _ _)
        · exact (min_le_left _ _).trans (min_le_right _ _)
        · exact min_le_right _ _
    · unfold combine3
      simp only
      rw [if_neg (not_le.mpr (h 0)), if_neg (not_le.mpr (h 1)), if_neg (not_le.mpr (h 2))]
      exact applyFill_clipped hv _

/-- **C64** With fill values, finite estimates never exceed the fill value and are not negative: one dimension (for the clipped cells of two dimensions see above). -/
theorem C64_clipped_range {v : ℝ} (hv : 0 < v) {x out : FV ℝ} (h : Clipped v x out) : out = .nan ∨ ∃ y, out = .fin y ∧ 0 ≤ y ∧ y ≤ v := by
  obtain ⟨h1, h2, h3, h4⟩ := h
  cases x with
  | nan => exact Or.inl (h2 rfl)
  | pinf => exact Or.inr ⟨v, h3 rfl, hv.le, le_rfl⟩
  | ninf => exact Or.inr ⟨0, h4 rfl, le_rfl, hv.le⟩
  | fin y => exact Or.inr ⟨_, h1 y rfl, le_min (le_max_right _ _) hv.le, min_le_right _ _⟩

/-! ## C100: order of the grid points -/

/-- **C100** (deviation) The same three grid points with their templates, once in increasing and once in decreasing order. For every interpolator that estimates less
than the fill value 2 between the templates 1 and 1, the first estimator returns less than 2 and the second one 2. -/
theorem C100_order_matters (argsort : List ℝ → List ℕ) (ha : IsArgsort argsort) (delaunay : Grid → Except Err (List (FV ℝ) → Bool))
    (interp : ClsArg (Fin 1 → FV ℝ) (Fin 1 → FV ℝ)) (r r' : RadMax 1)
    (h : radMaxInit argsort delaunay (.oneD [0, 1, 2]) [fun _ => 2, fun _ => 1, fun _ => 1] (.value 2) interp none false false = .ok r)
    (h' : radMaxInit argsort delaunay (.oneD [2, 1, 0]) [fun _ => 1, fun _ => 1, fun _ => 2] (.value 2) interp none false false = .ok r')
    (x : Fin 1 → FV ℝ) (hx : (r.est.call (.oneD [.fin (3 / 2)])).result = .ok x) (y : ℝ) (hy : x 0 = .fin y) (hy2 : y < 2) :
    r.est = r'.est ∧ ∃ out, radMaxCall1D r (.oneD [.fin (3 / 2)]) (3 / 2) = .ok out ∧ out 0 = .fin (max y 0) ∧
      radMaxCall1D r' (.oneD [.fin (3 / 2)]) (3 / 2) = .ok fun _ => .fin 2 := by
  have hs : ([0, 1, 2] : List ℝ).Pairwise (· < ·) := by norm_num
  obtain ⟨v, hp, hv, hr, hf, _⟩ := radMaxInit_ok h
  obtain ⟨v', hp', hv', hr', hf', hni', hnx', _⟩ := radMaxInit_ok h'
  cases hv
  cases hv'
  have h2 : handlesFill (some (2 : ℝ)) = some 2 := by unfold handlesFill; norm_num
  rw [h2] at hf hf'
  have heq : r.est = r'.est := by
    have hperm := C61_order_parametrized argsort ha delaunay [((0 : ℝ), fun _ : Fin 1 => FV.fin (2 : ℝ)), (1, fun _ => .fin 1), (2, fun _ => .fin 1)]
      [(2, fun _ => .fin 1), (1, fun _ => .fin 1), (0, fun _ => .fin 2)] (List.reverse_perm _).symm (by norm_num) interp none
    have e := hp.symm.trans (hperm.trans hp')
    exact Except.ok.inj e
  refine ⟨heq, ?_⟩
  have hn : Neighbors [0, 1, 2] (3 / 2) 1 := ⟨by simp, Or.inl ⟨by norm_num, by norm_num⟩⟩
  obtain ⟨a, b, out, ea, eb, ho, hc⟩ := C64_one_dimension argsort ha delaunay [0, 1, 2] hs _ _ _ _ _ _ r h 2 (by norm_num) hf (.oneD [.fin (3 / 2)]) (3 / 2) x hx rfl
    (fun hh => (nomatch hh)) 1 hn
  cases ea
  cases eb
  refine ⟨out, ho, ?_, ?_⟩
  · have := ((hc 0).2 (by norm_num) (by norm_num)).1 y hy
    rw [this, min_eq_left (max_le hy2.le (by norm_num))]
  · obtain ⟨_, _, _, hg, _⟩ := radMax_grid_sorted ha hs h
    rw [heq] at hx hg
    unfold radMaxCall1D
    rw [hx]
    simp only [hf']
    obtain ⟨hmin, hmax⟩ := sorted_min_max hs (by simp)
    rw [hg, hmin, hmax]
    simp only
    rw [hni', hnx', if_neg (by simp)]
    have hseg : segmentInds [0, 1, 2] r'.params.length 0 2 (3 / 2) = (1, 2) := by
      rw [hr']
      exact segmentInds_neighbors hs hn (by simp)
    simp only [List.getElem_cons_zero, List.length_cons, List.length_nil] at hseg ⊢
    erw [hseg]
    simp only [hr', List.getElem?_cons_succ, List.getElem?_cons_zero]
    refine congrArg Except.ok (funext fun c => ?_)
    simp only [le_refl, or_true, decide_true]
    exact applyFill_true 2 _

/-- **C100** Without fill values the order does not matter. -/
theorem C100_order_without_fill {m : ℕ} (argsort : List ℝ → List ℕ) (ha : IsArgsort argsort) (delaunay : Grid → Except Err (List (FV ℝ) → Bool)) (l l' : List (ℝ × (Fin m → ℝ))) (hp : l.Perm l')
    (hn : (l.map Prod.fst).Nodup) (interp : ClsArg (Fin m → FV ℝ) (Fin m → FV ℝ)) (extrap : Option (ClsArg (Fin m → FV ℝ) (Fin m → FV ℝ))) (ni nx : Bool) (r r' : RadMax m)
    (h : radMaxInit argsort delaunay (.oneD (l.map Prod.fst)) (l.map Prod.snd) .none interp extrap ni nx = .ok r)
    (h' : radMaxInit argsort delaunay (.oneD (l'.map Prod.fst)) (l'.map Prod.snd) .none interp extrap ni nx = .ok r') (target : TargetArg) (t : ℝ) :
    radMaxCall1D r target t = radMaxCall1D r' target t := by
  obtain ⟨v, hp1, hv, _, hf, _⟩ := radMaxInit_ok h
  obtain ⟨v', hp2, hv', _, hf', _⟩ := radMaxInit_ok h'
  cases hv
  cases hv'
  have heq : r.est = r'.est := by
    have hperm := C61_order_parametrized argsort ha delaunay (l.map fun e => (e.1, fun c => FV.fin (e.2 c))) (l'.map fun e => (e.1, fun c => FV.fin (e.2 c))) (hp.map _)
      (by simpa [List.map_map, Function.comp_def] using hn) interp extrap
    simp only [List.map_map, Function.comp_def] at hperm hp1 hp2
    have e := hp1.symm.trans (hperm.trans hp2)
    exact Except.ok.inj e
  have e1 : r.fill = none := hf
  have e2 : r'.fill = none := hf'
  unfold radMaxCall1D
  rw [heq, e1, e2]

/-- The grid of an estimator for distinct one-dimensional grid points in any order is the sorted grid; the templates stay in the given order. -/
theorem radMax_grid {m : ℕ} {argsort : List ℝ → List ℕ} (ha : IsArgsort argsort) {delaunay : Grid → Except Err (List (FV ℝ) → Bool)} {xs S : List ℝ} (hS : S.Pairwise (· < ·)) (hperm : S.Perm xs)
    {rows : List (Fin m → ℝ)} {fill : FillArg} {interp : ClsArg (Fin m → FV ℝ) (Fin m → FV ℝ)} {extrap : Option (ClsArg (Fin m → FV ℝ) (Fin m → FV ℝ))} {ni nx : Bool} {r : RadMax m}
    (h : radMaxInit argsort delaunay (.oneD xs) rows fill interp extrap ni nx = .ok r) :
    2 ≤ S.length ∧ rows.length = S.length ∧ r.est.dim = 1 ∧ r.est.grid.map coord = S ∧ r.params = rows ∧ r.nnInterp = ni ∧ r.nnExtrap = nx := by
  obtain ⟨v, hp, _, hr, _, hni, hnx, _⟩ := radMaxInit_ok h
  obtain ⟨d, pts, hull, rows', pts', rows'', i, x, h1, h2, h3, h4, h5, h6, h7⟩ := (C60_parametrized _ _ _ _ _ _ _).mp hp
  obtain ⟨hlt, hg⟩ := h1
  rcases hg with ⟨ys, hy, rfl, rfl⟩ | hg
  · cases hy
    cases h3
    rw [h7]
    simp only [List.length_map] at hlt h4
    have hl := hperm.length_eq
    refine ⟨by omega, by omega, rfl, ?_, hr, hni, hnx⟩
    unfold OrderedGrid sortRows at h5
    rw [if_pos rfl] at h5
    have e1 := (Prod.mk.inj h5).1
    have hc : (xs.map fun x => [x]).map coord = xs := by simp [List.map_map, Function.comp_def, coord]
    rw [hc] at e1
    obtain ⟨p1, p2⟩ := ha xs
    show pts'.map coord = S
    rw [← e1, takeRows_map, hc]
    exact ((takeRows_perm p1).trans hperm.symm).eq_of_pairwise (fun a b _ _ h1 h2 => le_antisymm h1 h2) p2 (hS.imp fun h => le_of_lt h)
  · cases hg

/-- **C100** With fill values, for distinct grid points in any order: let `i` and `i + 1` be the positions of the two neighbors of the target in the sorted grid `S`.
The estimate is the fill value in all cells where one of the templates at the positions `i` and `i + 1` of the order given by the user is at least the fill value,
and else the clipped estimate of the inter- or extrapolator (which does not depend on the order, see C61). -/
theorem C100_positions {m : ℕ} (argsort : List ℝ → List ℕ) (ha : IsArgsort argsort) (delaunay : Grid → Except Err (List (FV ℝ) → Bool)) (xs S : List ℝ) (hS : S.Pairwise (· < ·))
    (hperm : S.Perm xs) (rows : List (Fin m → ℝ)) (fill : FillArg) (interp : ClsArg (Fin m → FV ℝ) (Fin m → FV ℝ)) (extrap : Option (ClsArg (Fin m → FV ℝ) (Fin m → FV ℝ))) (nx : Bool)
    (r : RadMax m) (h : radMaxInit argsort delaunay (.oneD xs) rows fill interp extrap false nx = .ok r) (v : ℝ) (hv : 0 < v) (hf : r.fill = some v)
    (target : TargetArg) (t : ℝ) (x : Fin m → FV ℝ) (hx : (r.est.call target).result = .ok x) (hnx : nx = true → (∃ a ∈ xs, a ≤ t) ∧ ∃ a ∈ xs, t ≤ a)
    (i : ℕ) (hn : Neighbors S t i) :
    ∃ a b out, rows[i]? = some a ∧ rows[i + 1]? = some b ∧ radMaxCall1D r target t = .ok out ∧
      ∀ c, ((v ≤ a c ∨ v ≤ b c) → out c = .fin v) ∧ (a c < v → b c < v → Clipped v (x c) (out c)) := by
  obtain ⟨h2, hl, hd, hg, hr, hni', hnx'⟩ := radMax_grid ha hS hperm h
  obtain ⟨hi, _⟩ := id hn
  obtain ⟨hmin, hmax⟩ := sorted_min_max hS h2
  have e1 : rows[i]? = some (rows[i]'(by omega)) := List.getElem?_eq_getElem _
  have e2 : rows[i + 1]? = some (rows[i + 1]'(by omega)) := List.getElem?_eq_getElem _
  refine ⟨_, _, fun c => applyFill v (decide (v ≤ rows[i] c ∨ v ≤ rows[i + 1] c)) (clip0 (x c)), e1, e2, ?_, fun c => ⟨fun hc => ?_, fun h1 h2 => ?_⟩⟩
  · unfold radMaxCall1D
    rw [hx]
    simp only [hf]
    rw [hg, hmin, hmax]
    simp only
    rw [if_neg]
    · have hseg : segmentInds S r.params.length (S[0]'(by omega)) (S[S.length - 1]'(by omega)) t = (i, i + 1) := by
        have hpl : r.params.length = S.length := by rw [hr, hl]
        rw [hpl]
        exact segmentInds_neighbors hS hn h2
      rw [hseg, hr]
      simp only [e1, e2]
    · rw [hni', hnx']
      rintro (⟨ho, hx'⟩ | hc)
      · obtain ⟨⟨a, ha1, ha2⟩, ⟨b, hb1, hb2⟩⟩ := hnx hx'
        have m1 := (min?_spec hmin).2 a (hperm.mem_iff.mpr ha1)
        have m2 := (max?_spec hmax).2 b (hperm.mem_iff.mpr hb1)
        rcases ho with ho | ho
        · exact absurd (m1.trans ha2) (not_le.mpr ho)
        · exact absurd (hb2.trans m2) (not_le.mpr ho)
      · cases hc
  · simp only [hc, decide_true]; exact applyFill_true v _
  · have : ¬ (v ≤ rows[i] c ∨ v ≤ rows[i + 1] c) := by push Not; exact ⟨h1, h2⟩
    simp only [this, decide_false]
    exact applyFill_clipped hv _

/-- **C100** So two orders of the same grid points with their templates give the same estimates at a target, if in both orders the same cells have a fill value at the
positions `i`, `i + 1` of the neighbors in the sorted grid. -/
theorem C100_same_estimate {m : ℕ} (argsort : List ℝ → List ℕ) (ha : IsArgsort argsort) (delaunay : Grid → Except Err (List (FV ℝ) → Bool)) (l l' : List (ℝ × (Fin m → ℝ))) (hp : l.Perm l')
    (hnd : (l.map Prod.fst).Nodup) (v0 : ℝ) (interp : ClsArg (Fin m → FV ℝ) (Fin m → FV ℝ)) (extrap : Option (ClsArg (Fin m → FV ℝ) (Fin m → FV ℝ))) (nx : Bool) (r r' : RadMax m)
    (h : radMaxInit argsort delaunay (.oneD (l.map Prod.fst)) (l.map Prod.snd) (.value v0) interp extrap false nx = .ok r)
    (h' : radMaxInit argsort delaunay (.oneD (l'.map Prod.fst)) (l'.map Prod.snd) (.value v0) interp extrap false nx = .ok r')
    (S : List ℝ) (hS : S.Pairwise (· < ·)) (hperm : S.Perm (l.map Prod.fst)) (target : TargetArg) (t : ℝ) (i : ℕ) (hn : Neighbors S t i)
    (hsame : ∀ a b a' b' : ℝ × (Fin m → ℝ), l[i]? = some a → l[i + 1]? = some b → l'[i]? = some a' → l'[i + 1]? = some b' →
      ∀ c, (v0 ≤ a.2 c ∨ v0 ≤ b.2 c) ↔ (v0 ≤ a'.2 c ∨ v0 ≤ b'.2 c)) :
    radMaxCall1D r target t = radMaxCall1D r' target t := by
  obtain ⟨v, hp1, hv, _, hf, _⟩ := radMaxInit_ok h
  obtain ⟨v', hp2, hv', _, hf', _⟩ := radMaxInit_ok h'
  cases hv
  cases hv'
  have heq : r.est = r'.est := by
    have hperm := C61_order_parametrized argsort ha delaunay (l.map fun e => (e.1, fun c => FV.fin (e.2 c))) (l'.map fun e => (e.1, fun c => FV.fin (e.2 c))) (hp.map _)
      (by simpa [List.map_map, Function.comp_def] using hnd) interp extrap
    simp only [List.map_map, Function.comp_def] at hperm hp1 hp2
    have e := hp1.symm.trans (hperm.trans hp2)
    exact Except.ok.inj e
  obtain ⟨h2, hl, hd, hg, hr, hni, hnx⟩ := radMax_grid ha hS hperm h
  obtain ⟨h2', hl', hd', hg', hr', hni', hnx'⟩ := radMax_grid ha hS (hperm.trans (hp.map _)) h'
  obtain ⟨hi, _⟩ := id hn
  obtain ⟨hmin, hmax⟩ := sorted_min_max hS h2
  rw [List.length_map] at hl hl'
  have a1 : l[i]? = some (l[i]'(by omega)) := List.getElem?_eq_getElem _
  have a2 : l[i + 1]? = some (l[i + 1]'(by omega)) := List.getElem?_eq_getElem _
  have b1 : l'[i]? = some (l'[i]'(by omega)) := List.getElem?_eq_getElem _
  have b2 : l'[i + 1]? = some (l'[i + 1]'(by omega)) := List.getElem?_eq_getElem _
  unfold radMaxCall1D
  rw [← heq, hf, hf']
  cases hx : (r.est.call target).result with
  | error e => rfl
  | ok x =>
    simp only
    by_cases hv0 : v0 = 0
    · have : handlesFill (some v0) = none := if_pos hv0
      rw [this]
    · have hv1 : handlesFill (some v0) = some v0 := if_neg hv0
      rw [hv1]
      simp only
      rw [hg, hmin, hmax]
      simp only
      rw [hni, hni', hnx, hnx']
      have hpl : r.params.length = S.length := by rw [hr, List.length_map, hl]
      have hpl' : r'.params.length = S.length := by rw [hr', List.length_map, hl']
      rw [hpl, hpl', segmentInds_neighbors hS hn h2, hr, hr']
      simp only [List.getElem?_map, a1, a2, b1, b2, Option.map_some]
      have := hsame _ _ _ _ a1 a2 b1 b2
      split
      · rfl
      · refine congrArg Except.ok (funext fun c => ?_)
        rw [decide_eq_decide.mpr (this c)]

/-! ## C101: the largest grid point -/

/-- **C101** (deviation) At the largest grid point a one-dimensional estimator with fill values raises IndexError, although the target is inside the grid. -/
theorem C101_upper_end {m : ℕ} (argsort : List ℝ → List ℕ) (ha : IsArgsort argsort) (delaunay : Grid → Except Err (List (FV ℝ) → Bool)) (xs : List ℝ) (hs : xs.Pairwise (· < ·))
    (rows : List (Fin m → ℝ)) (fill : FillArg) (interp : ClsArg (Fin m → FV ℝ) (Fin m → FV ℝ)) (extrap : Option (ClsArg (Fin m → FV ℝ) (Fin m → FV ℝ))) (nx : Bool) (r : RadMax m)
    (h : radMaxInit argsort delaunay (.oneD xs) rows fill interp extrap false nx = .ok r) (v : ℝ) (hf : r.fill = some v)
    (t : ℝ) (ht : t ∈ xs) (hmaxt : ∀ a ∈ xs, a ≤ t) (x : Fin m → FV ℝ) (hx : (r.est.call (.oneD [.fin t])).result = .ok x) :
    r.est.call (.oneD [.fin t]) = ⟨r.est.interpolator [.fin t], false⟩ ∧ radMaxCall1D r (.oneD [.fin t]) t = .error .indexError := by
  obtain ⟨h2, hl, hd, hg, hr, hni', hnx'⟩ := radMax_grid_sorted ha hs h
  obtain ⟨hmin, hmax⟩ := sorted_min_max hs h2
  have hmem : ∃ p ∈ r.est.grid, coord p = t := by
    rw [← hg] at ht
    exact List.mem_map.mp ht
  obtain ⟨p, hp, rfl⟩ := hmem
  refine ⟨(C60_dispatch_1d _ hd (List.ne_nil_of_mem hp) _ (.fin (coord p)) rfl).1 ⟨⟨p, hp, by simp⟩, ⟨p, hp, by simp⟩⟩, ?_⟩
  unfold radMaxCall1D
  rw [hx]
  simp only [hf]
  rw [hg, hmin, hmax]
  simp only
  have hlo := (min?_spec hmin).2 _ ht
  have hhi := (max?_spec hmax).2 _ ht
  rw [if_neg]
  · have hseg : segmentInds xs r.params.length (xs[0]'(by omega)) (xs[xs.length - 1]'(by omega)) (coord p) = (xs.length - 1, xs.length) := by
      unfold segmentInds
      rw [if_neg (not_lt.mpr hlo), if_neg (not_lt.mpr hhi), filter_le_all hmaxt]
    rw [hseg, hr]
    have e2 : rows[xs.length]? = none := List.getElem?_eq_none (by omega)
    simp only [e2]
    split
    · next heq => cases heq
    · rfl
  · rw [hni']
    rintro (⟨ho, _⟩ | hc)
    · rcases ho with ho | ho
      · exact absurd hlo (not_le.mpr ho)
      · exact absurd hhi (not_le.mpr ho)
    · cases hc

/-- Every number other than the largest grid point has neighbors. -/
theorem exists_neighbors {xs : List ℝ} (hs : xs.Pairwise (· < ·)) (h2 : 2 ≤ xs.length) {t : ℝ} (ht : t ≠ xs[xs.length - 1]'(by omega)) : ∃ i, Neighbors xs t i := by
  by_cases hlo : t < xs[0]'(by omega)
  · exact ⟨0, by omega, Or.inr (Or.inl ⟨hlo, rfl⟩)⟩
  by_cases hhi : xs[xs.length - 1]'(by omega) < t
  · refine ⟨xs.length - 2, by omega, Or.inr (Or.inr ⟨?_, by omega⟩)⟩
    have : xs.length - 2 + 1 = xs.length - 1 := by omega
    simp only [this]; exact hhi
  rw [not_lt] at hlo hhi
  have hlt : t < xs[xs.length - 1]'(by omega) := lt_of_le_of_ne hhi ht
  have key : ∀ k (hk : k < xs.length), t < xs[k] → ∃ i, Neighbors xs t i := by
    intro k
    induction k with
    | zero => intro hk h; exact absurd h (not_lt.mpr hlo)
    | succ k ih =>
      intro hk h
      by_cases hc : t < xs[k]'(by omega)
      · exact ih (by omega) hc
      · exact ⟨k, hk, Or.inl ⟨not_lt.mp hc, h⟩⟩
  exact key _ _ hlt

/-- **C101** At every other target the estimate exists. -/
theorem C101_other_targets {m : ℕ} (argsort : List ℝ → List ℕ) (ha : IsArgsort argsort) (delaunay : Grid → Except Err (List (FV ℝ) → Bool)) (xs : List ℝ) (hs : xs.Pairwise (· < ·))
    (rows : List (Fin m → ℝ)) (fill : FillArg) (interp : ClsArg (Fin m → FV ℝ) (Fin m → FV ℝ)) (extrap : Option (ClsArg (Fin m → FV ℝ) (Fin m → FV ℝ))) (ni nx : Bool) (r : RadMax m)
    (h : radMaxInit argsort delaunay (.oneD xs) rows fill interp extrap ni nx = .ok r) (target : TargetArg) (t : ℝ) (ht : (∃ a ∈ xs, t < a) ∨ ∀ b ∈ xs, b < t)
    (x : Fin m → FV ℝ) (hx : (r.est.call target).result = .ok x) : ∃ out, radMaxCall1D r target t = .ok out := by
  obtain ⟨h2, hl, hd, hg, hr, hni', hnx'⟩ := radMax_grid_sorted ha hs h
  obtain ⟨hmin, hmax⟩ := sorted_min_max hs h2
  have hne : t ≠ xs[xs.length - 1]'(by omega) := by
    rintro rfl
    rcases ht with ⟨a, ha', hta⟩ | hta
    · exact absurd ((max?_spec hmax).2 a ha') (not_le.mpr hta)
    · exact absurd (hta _ (List.getElem_mem _)) (lt_irrefl _)
  obtain ⟨i, hn⟩ := exists_neighbors hs h2 hne
  obtain ⟨hi, _⟩ := id hn
  unfold radMaxCall1D
  rw [hx]
  simp only
  cases hf : r.fill with
  | none => exact ⟨_, rfl⟩
  | some v =>
    simp only
    rw [hg, hmin, hmax]
    simp only
    split
    · exact ⟨_, rfl⟩
    · have hseg : segmentInds xs r.params.length (xs[0]'(by omega)) (xs[xs.length - 1]'(by omega)) t = (i, i + 1) := by
        have hpl : r.params.length = xs.length := by rw [hr, hl]
        rw [hpl]
        exact segmentInds_neighbors hs hn h2
      have e1 : rows[i]? = some (rows[i]'(by omega)) := List.getElem?_eq_getElem _
      have e2 : rows[i + 1]? = some (rows[i + 1]'(by omega)) := List.getElem?_eq_getElem _
      rw [hseg, hr]
      simp only [e1, e2]
      exact ⟨_, rfl⟩

/-- **C101** So where the inter- or extrapolator gives an estimate, the estimator fails exactly at the largest grid point, if fill values are handled and the
interpolator is not a nearest neighbor searcher; and always with IndexError. -/
theorem C101_fails_iff {m : ℕ} (argsort : List ℝ → List ℕ) (ha : IsArgsort argsort) (delaunay : Grid → Except Err (List (FV ℝ) → Bool)) (xs : List ℝ) (hs : xs.Pairwise (· < ·))
    (rows : List (Fin m → ℝ)) (fill : FillArg) (interp : ClsArg (Fin m → FV ℝ) (Fin m → FV ℝ)) (extrap : Option (ClsArg (Fin m → FV ℝ) (Fin m → FV ℝ))) (ni nx : Bool) (r : RadMax m)
    (h : radMaxInit argsort delaunay (.oneD xs) rows fill interp extrap ni nx = .ok r) (t : ℝ) (x : Fin m → FV ℝ) (hx : (r.est.call (.oneD [.fin t])).result = .ok x) :
    ((∃ e, radMaxCall1D r (.oneD [.fin t]) t = .error e) ↔ r.fill ≠ none ∧ ni = false ∧ t ∈ xs ∧ ∀ a ∈ xs, a ≤ t) ∧
    ∀ e, radMaxCall1D r (.oneD [.fin t]) t = .error e → e = .indexError := by
  by_cases ht : t ∈ xs ∧ ∀ a ∈ xs, a ≤ t
  · cases hf : r.fill with
    | none =>
      have : radMaxCall1D r (.oneD [.fin t]) t = .ok fun c => clip0 (x c) := by
        unfold radMaxCall1D; rw [hx]; simp only [hf]
      rw [this]
      exact ⟨⟨(by rintro ⟨e, he⟩; cases he), fun hh => absurd rfl hh.1⟩, fun e he => (by cases he)⟩
    | some v =>
      cases hni : ni with
      | true =>
        obtain ⟨h2, _, _, hg, _, hni', _⟩ := radMax_grid_sorted ha hs h
        obtain ⟨hmin, hmax⟩ := sorted_min_max hs h2
        have : radMaxCall1D r (.oneD [.fin t]) t = .ok fun c => clip0 (x c) := by
          unfold radMaxCall1D
          rw [hx]
          simp only [hf]
          rw [hg, hmin, hmax]
          simp only
          rw [if_pos (Or.inr (by rw [hni', hni]))]
        rw [this]
        exact ⟨⟨(by rintro ⟨e, he⟩; cases he), fun hh => (by cases hh.2.1)⟩, fun e he => (by cases he)⟩
      | false =>
        have := (C101_upper_end argsort ha delaunay xs hs rows fill interp extrap nx r (hni ▸ h) v hf t ht.1 ht.2 x hx).2
        rw [this]
        exact ⟨⟨fun _ => ⟨by simp, rfl, ht⟩, fun _ => ⟨_, rfl⟩⟩, fun e he => (by cases he; rfl)⟩
  · have ht' : (∃ a ∈ xs, t < a) ∨ ∀ b ∈ xs, b < t := by
      by_contra hc
      push Not at hc
      obtain ⟨hc1, b, hb, hb'⟩ := hc
      have : b = t := le_antisymm (hc1 b hb) hb'
      exact ht ⟨this ▸ hb, hc1⟩
    obtain ⟨out, ho⟩ := C101_other_targets argsort ha delaunay xs hs rows fill interp extrap ni nx r h (.oneD [.fin t]) t ht' x hx
    rw [ho]
    exact ⟨⟨(by rintro ⟨e, he⟩; cases he), fun hh => absurd hh.2.2 ht⟩, fun e he => (by cases he)⟩

/-! ## C102: the documented shape of targets -/

/-- the target as an array of shape (2,) and of the documented shape (1, 2) -/
def flatTarget (t : Pt 0) : TargetArg := .oneD [.fin (t 0), .fin (t 1)]
/-- the target as an array of the documented shape (1, 2) -/
def rowTarget (t : Pt 0) : TargetArg := .twoD 2 [[.fin (t 0), .fin (t 1)]]

theorem call_shape {β : Type*} (e : Estimator β) (hd : e.dim = 2) (t : Pt 0) : e.call (flatTarget t) = e.call (rowTarget t) := by
  unfold Estimator.call flatTarget rowTarget
  rw [hd]
  rfl

/-- **C102** (deviation) Outside the grid a two-dimensional estimator with fill values raises ValueError for every target of the documented shape, also where the
extrapolator gave an estimate and the same target with one axis works. -/
theorem C102_row_outside {m : ℕ} (r : RadMax m) (hd : r.est.dim = 2) (v : ℝ) (hf : r.fill = some v) (hni : r.nnInterp = false) (hnx : r.nnExtrap = false)
    (argsort : List (FV ℝ × FV ℝ) → ℕ) (T : Triangulation) (findSimplex : Pt 0 → Option ℕ) (t : Pt 0) (ht : findSimplex t = none) (x : Fin m → FV ℝ)
    (hx : (r.est.call (rowTarget t)).result = .ok x) :
    radMaxCall2D r argsort T findSimplex (rowTarget t) t = .error .valueError ∧
    ∀ i s a b c, findNearestSimplex argsort T t = .ok i → T.simplices[i]? = some s → r.params[(s 0).val]? = some a → r.params[(s 1).val]? = some b → r.params[(s 2).val]? = some c →
      ∃ out, radMaxCall2D r argsort T findSimplex (flatTarget t) t = .ok out := by
  constructor
  · unfold radMaxCall2D
    rw [hx]
    simp only [hf]
    rw [if_neg (by simp [hni, hnx])]
    unfold locateSimplex
    rw [ht]
    rfl
  · intro i s a b c h1 h2 h3 h4 h5
    rw [← call_shape _ hd] at hx
    unfold radMaxCall2D
    rw [hx]
    simp only [hf]
    rw [if_neg (by simp [hni, hnx])]
    have : locateSimplex argsort T findSimplex (flatTarget t) t = .ok i := by
      unfold locateSimplex flatTarget
      rw [ht]; exact h1
    rw [this]
    simp only [h2, h3, h4, h5]
    exact ⟨_, rfl⟩

/-- **C102** Inside the grid, without fill values and with nearest neighbors (that is, in all cases but that of `C102_row_outside`) both shapes give the same. -/
theorem C102_same_estimate {m : ℕ} (r : RadMax m) (hd : r.est.dim = 2) (argsort : List (FV ℝ × FV ℝ) → ℕ) (T : Triangulation) (findSimplex : Pt 0 → Option ℕ) (t : Pt 0)
    (h : (∃ i, findSimplex t = some i) ∨ r.fill = none ∨ r.nnInterp = true ∨ r.nnExtrap = true) :
    radMaxCall2D r argsort T findSimplex (rowTarget t) t = radMaxCall2D r argsort T findSimplex (flatTarget t) t := by
  unfold radMaxCall2D
  rw [call_shape _ hd]
  cases hx : (r.est.call (rowTarget t)).result with
  | error e => rfl
  | ok x =>
    simp only
    cases hf : r.fill with
    | none => rfl
    | some v =>
      simp only
      cases hfs : findSimplex t with
      | some i =>
        have e : ∀ tg, locateSimplex argsort T findSimplex tg t = .ok i := by intro tg; unfold locateSimplex; rw [hfs]
        rw [e, e]
      | none =>
        rcases h with ⟨i, hi⟩ | h | h | h
        · rw [hfs] at hi; cases hi
        · rw [hf] at h; cases h
        · rw [if_pos (Or.inr h), if_pos (Or.inr h)]
        · rw [if_pos (Or.inl ⟨rfl, h⟩), if_pos (Or.inl ⟨rfl, h⟩)]

/-! ## The hypotheses can be met -/

/-- an interpolator that always estimates one -/
def constantOne : ClsArg (Fin 1 → FV ℝ) (Fin 1 → FV ℝ) := .cls fun _ _ => .ok fun _ => .ok fun _ => .fin 1

theorem radMax_example (xs : List ℝ) (hx : 2 ≤ xs.length) (rows : List (Fin 1 → ℝ)) (hl : rows.length = xs.length) :
    ∃ r, radMaxInit stableArgsort (fun _ => .error .valueError) (.oneD xs) rows (.value 2) constantOne none false false = .ok r ∧ r.fill = some 2 := by
  have h2 : handlesFill (some (2 : ℝ)) = some 2 := by unfold handlesFill; norm_num
  unfold radMaxInit
  rw [parametrizedInit_1d _ _ _ hx _ (by simpa using hl)]
  simp only [constantOne, buildEstimator, fillVal, h2]
  rw [if_neg (by simp)]
  exact ⟨_, rfl, rfl⟩

/-- the hypotheses of C64 (one dimension), C100 and C101 are met by this estimator -/
example : ∃ r r' : RadMax 1, radMaxInit stableArgsort (fun _ => .error .valueError) (.oneD [0, 1, 2]) [fun _ => 2, fun _ => 1, fun _ => 1] (.value 2) constantOne none false false = .ok r ∧
    radMaxInit stableArgsort (fun _ => .error .valueError) (.oneD [2, 1, 0]) [fun _ => 1, fun _ => 1, fun _ => 2] (.value 2) constantOne none false false = .ok r' ∧
    r.fill = some 2 ∧ Neighbors [0, 1, 2] (3 / 2) 1 ∧ (r.est.call (.oneD [.fin (3 / 2)])).result = .ok (fun _ => .fin 1) ∧ (r.est.call (.oneD [.fin 2])).result = .ok (fun _ => .fin 1) := by
  obtain ⟨r, hr, hf⟩ := radMax_example [0, 1, 2] (by simp) [fun _ => 2, fun _ => 1, fun _ => 1] rfl
  obtain ⟨r', hr', _⟩ := radMax_example [2, 1, 0] (by simp) [fun _ => 1, fun _ => 1, fun _ => 2] rfl
  have hs : ([0, 1, 2] : List ℝ).Pairwise (· < ·) := by norm_num
  obtain ⟨_, _, hd, hg, _⟩ := radMax_grid_sorted stableArgsort_isArgsort hs hr
  obtain ⟨v, hp, _⟩ := radMaxInit_ok hr
  have hint : r.est.interpolator = fun _ => .ok fun _ => .fin 1 := by
    rw [parametrizedInit_1d _ _ _ (by simp) _ (by simp)] at hp
    simp only [constantOne, buildEstimator] at hp
    rw [← Except.ok.inj hp]
  have hmem : ∀ t ∈ ([0, 1, 2] : List ℝ), ∃ p ∈ r.est.grid, coord p = t := by
    intro t ht; rw [← hg] at ht; exact List.mem_map.mp ht
  obtain ⟨p0, hp0, e0⟩ := hmem 0 (by simp)
  obtain ⟨p2, hp2, e2⟩ := hmem 2 (by simp)
  refine ⟨r, r', hr, hr', hf, ⟨by simp, Or.inl ⟨by norm_num, by norm_num⟩⟩, ?_, ?_⟩
  · rw [(C60_dispatch_1d _ hd (List.ne_nil_of_mem hp0) _ (.fin (3 / 2)) rfl).1 ⟨⟨p0, hp0, by rw [e0]; simp; norm_num⟩, ⟨p2, hp2, by rw [e2]; simp; norm_num⟩⟩, hint]
  · rw [(C60_dispatch_1d _ hd (List.ne_nil_of_mem hp0) _ (.fin 2) rfl).1 ⟨⟨p0, hp0, by rw [e0]; simp⟩, ⟨p2, hp2, by rw [e2]; simp⟩⟩, hint]

/-- two dimensions: the square of `squareTri` with one filled template; the target (2, 2) is outside -/
example : ∃ (r : RadMax 1) (argsort : List (FV ℝ × FV ℝ) → ℕ) (i : ℕ) (s : Fin 3 → Fin squareTri.points.length) (p : Fin 3 → Fin 1 → ℝ), r.est.dim = 2 ∧ r.fill = some 2 ∧
    r.nnInterp = false ∧ r.nnExtrap = false ∧ (r.est.call (rowTarget ![2, 2])).result = .ok (fun _ => .fin 1) ∧ findNearestSimplex argsort squareTri ![2, 2] = .ok i ∧
    squareTri.simplices[i]? = some s ∧ ∀ j, r.params[(s j).val]? = some (p j) := by
  obtain ⟨argsort, hs⟩ := exists_argsort
  obtain ⟨i, k, hi, hk, -, h, -⟩ := C54_nearest_simplex argsort hs squareTri squareTri_injective (by simp [Triangulation.hullPoints, squareTri]) squareTri_hull ![2, 2] squareTri_target
  have hi' : i < squareTri.simplices.length := by simpa [Triangulation.simplexPoints] using hi
  have hsim : squareTri.simplices[i]? = some squareTri.simplices[i] := List.getElem?_eq_getElem _
  refine ⟨⟨⟨2, [[0, 0], [1, 0], [0, 1], [1, 1]], fun _ => false, fun _ => .error .valueError, some fun _ => .ok fun _ => .fin 1⟩, List.replicate squareTri.points.length fun _ => 1, some 2, false, false⟩,
    argsort, i, squareTri.simplices[i], fun _ _ => 1, rfl, rfl, rfl, rfl, ?_, h, hsim, ?_⟩
  · rw [(((C60_dispatch_nd _ (by simp) _ [.fin 2, .fin 2] (by simp [rowTarget, checkTarget])).2 rfl).1 _ rfl)]
  · intro j
    simp [List.getElem?_replicate]

end Pyirf.Interpolation
