import Verif.Interpolation.PlumbProps
import Mathlib.Data.Finset.Max

/-! # Property C54: nearest facet and its simplex -/
set_option linter.unusedSectionVars false
set_option linter.unusedSimpArgs false

namespace Pyirf.Interpolation
open Pyirf Pyirf.Np

/-! ## Lemmas -/

theorem norm2_pos {k : ℕ} {x : Pt k} (h : x ≠ 0) : 0 < norm2 x := by rw [norm2_eq]; exact Real.sqrt_pos.mpr (dot_self_pos h)

theorem pointFacetAngle_eq {k : ℕ} {A B P : Pt k} (hA : A ≠ P) (hB : B ≠ P) :
    pointFacetAngle A B P = .fin (dot (B - P) (A - P) / (norm2 (A - P) * norm2 (B - P))) := by
  unfold pointFacetAngle
  rw [FV.fin_div_fin]
  exact mul_ne_zero (norm2_pos (sub_ne_zero.mpr hA)).ne' (norm2_pos (sub_ne_zero.mpr hB)).ne'

theorem sortLt_trans_neg {a b c : FV ℝ} (h1 : FV.sortLt b a = false) (h2 : FV.sortLt c b = false) : FV.sortLt c a = false := by
  cases a <;> cases b <;> cases c <;> simp_all [FV.sortLt, FV.lt]
  linarith

theorem sortLt_asymm {a b : FV ℝ} (h : FV.sortLt a b = true) : FV.sortLt b a = false := by
  cases a <;> cases b <;> simp_all [FV.sortLt, FV.lt]
  linarith

theorem keyLt_trans_neg {a b c : FV ℝ × FV ℝ} (h1 : keyLt b a = false) (h2 : keyLt c b = false) : keyLt c a = false := by
  unfold keyLt at *
  simp only [Bool.or_eq_false_iff, Bool.and_eq_false_iff, Bool.not_eq_false'] at *
  obtain ⟨p1, p2⟩ := h1
  obtain ⟨q1, q2⟩ := h2
  refine ⟨sortLt_trans_neg p1 q1, ?_⟩
  rcases p2 with p2 | p2
  · left
    by_contra hc
    rw [Bool.not_eq_true] at hc
    have := sortLt_trans_neg q1 hc
    rw [this] at p2; exact Bool.false_ne_true p2
  · rcases q2 with q2 | q2
    · left
      by_contra hc
      rw [Bool.not_eq_true] at hc
      have := sortLt_trans_neg hc p1
      rw [this] at q2; exact Bool.false_ne_true q2
    · right; exact sortLt_trans_neg p2 q2

theorem keyLt_asymm {a b : FV ℝ × FV ℝ} (h : keyLt a b = true) : keyLt b a = false := by
  unfold keyLt at *
  simp only [Bool.or_eq_true, Bool.and_eq_true, Bool.not_eq_true', Bool.or_eq_false_iff, Bool.and_eq_false_iff, Bool.not_eq_false'] at *
  rcases h with h | ⟨h, h'⟩
  · exact ⟨sortLt_asymm h, Or.inl h⟩
  · exact ⟨h, Or.inr (sortLt_asymm h')⟩

/-- The contract of `np.argsort(...)[0]` can be met for every nonempty list. -/
theorem exists_argsortFirst (keys : List (FV ℝ × FV ℝ)) (h : keys ≠ []) : ∃ i, IsArgsortFirst keys i := by
  have key : ∃ x ∈ keys, ∀ y ∈ keys, keyLt y x = false := by
    induction keys with
    | nil => exact absurd rfl h
    | cons a l ih =>
      by_cases hl : l = []
      · subst hl
        refine ⟨a, by simp, ?_⟩
        intro y hy
        simp only [List.mem_singleton] at hy
        subst hy
        rcases hc : keyLt y y with _ | _
        · rfl
        · have := keyLt_asymm hc; rw [hc] at this; exact this
      · obtain ⟨x, hx, hm⟩ := ih hl
        rcases hc : keyLt a x with _ | _
        · refine ⟨x, List.mem_cons_of_mem _ hx, ?_⟩
          intro y hy
          rcases List.mem_cons.mp hy with rfl | hy
          · exact hc
          · exact hm y hy
        · refine ⟨a, List.mem_cons_self, ?_⟩
          intro y hy
          rcases List.mem_cons.mp hy with rfl | hy
          · rcases hc' : keyLt y y with _ | _
            · rfl
            · have := keyLt_asymm hc'; rw [hc'] at this; exact this
          · exact keyLt_trans_neg (keyLt_asymm hc) (hm y hy)
  obtain ⟨x, hx, hm⟩ := key
  obtain ⟨i, hi, rfl⟩ := List.mem_iff_getElem.mp hx
  exact ⟨i, hi, fun j hj => hm _ (List.getElem_mem hj)⟩

/-! ## C54 -/

/-- the cosine of the angle under which a facet is seen -/
noncomputable def cosAngle (f : Facet) (P : Pt 0) : ℝ := dot (f.2 - P) (f.1 - P) / (euclid f.1 P * euclid f.2 P)

/-- **C54** For a nonempty list of facets and a target that is none of their end points: `find_nearest_facet` returns the index of a facet that is smallest in the
pair (plumb_point_dist, cos of the angle at the target), for every behaviour of the (unstable) sort. -/
theorem C54_nearest_facet (argsort : List (FV ℝ × FV ℝ) → ℕ) (hsort : ∀ keys, keys ≠ [] → IsArgsortFirst keys (argsort keys))
    (facets : List Facet) (hne : facets ≠ []) (P : Pt 0) (hP : ∀ f ∈ facets, f.1 ≠ P ∧ f.2 ≠ P) (d : Facet → ℝ)
    (hd : ∀ f ∈ facets, plumbPointDist crossNorm2 f.1 f.2 P = .fin (d f)) :
    ∃ (i : ℕ) (hi : i < facets.length), findNearestFacet argsort facets P = .ok i ∧
      ∀ (j : ℕ) (hj : j < facets.length), d facets[i] < d facets[j] ∨ (d facets[i] = d facets[j] ∧ cosAngle facets[i] P ≤ cosAngle facets[j] P) := by
  obtain ⟨hi, hm⟩ := hsort (facets.map fun f => facetKey f P) (by simpa using hne)
  have hi' : argsort (facets.map fun f => facetKey f P) < facets.length := by simpa using hi
  refine ⟨_, hi', by unfold findNearestFacet; rw [if_neg hne], ?_⟩
  intro j hj
  have h := hm j (by simpa using hj)
  rw [List.getElem_map, List.getElem_map] at h
  have hk : ∀ f ∈ facets, facetKey f P = (.fin (d f), .fin (cosAngle f P)) := by
    intro f hf
    unfold facetKey
    rw [hd f hf, pointFacetAngle_eq (hP f hf).1 (hP f hf).2]
    rfl
  rw [hk _ (List.getElem_mem _), hk _ (List.getElem_mem _)] at h
  simp only [keyLt, FV.sortLt, FV.lt_fin, Bool.or_eq_false_iff, Bool.and_eq_false_iff, Bool.not_eq_false', decide_eq_false_iff_not, decide_eq_true_eq, not_lt] at h
  obtain ⟨h1, h2⟩ := h
  rcases h1.lt_or_eq with h1 | h1
  · exact Or.inl h1
  · right
    refine ⟨h1, ?_⟩
    rcases h2 with h2 | h2
    · exact absurd h2 (by rw [h1]; exact lt_irrefl _)
    · exact h2

/-- **C54** In terms of the true distances: no facet is nearer than the returned one by more than 5.005e-6 of the lengths of both. -/
theorem C54_nearest_facet_distance (argsort : List (FV ℝ × FV ℝ) → ℕ) (hsort : ∀ keys, keys ≠ [] → IsArgsortFirst keys (argsort keys))
    (facets : List Facet) (hne : facets ≠ []) (P : Pt 0) (hP : ∀ f ∈ facets, f.1 ≠ P ∧ f.2 ≠ P) :
    ∃ (i : ℕ) (hi : i < facets.length), findNearestFacet argsort facets P = .ok i ∧
      ∀ (j : ℕ) (hj : j < facets.length) (δi δj : ℝ), IsSegmentDist facets[i].1 facets[i].2 P δi → IsSegmentDist facets[j].1 facets[j].2 P δj →
        δi ≤ δj + 5.005e-6 * (euclid facets[i].2 facets[i].1 + euclid facets[j].2 facets[j].1) := by
  have hd : ∀ f : Facet, ∃ d, plumbPointDist crossNorm2 f.1 f.2 P = .fin d := by
    intro f
    obtain ⟨⟨δ, h1⟩, ⟨ε, h2⟩⟩ := C53_distance_exists f.1 f.2 P
    obtain ⟨d, h, -⟩ := C53_plumb_point_dist f.1 f.2 P h1 h2
    exact ⟨d, h⟩
  choose d hd using hd
  obtain ⟨i, hi, h1, h2⟩ := C54_nearest_facet argsort hsort facets hne P hP d (fun f _ => hd f)
  refine ⟨i, hi, h1, ?_⟩
  intro j hj δi δj hδi hδj
  have hle : d facets[i] ≤ d facets[j] := by
    rcases h2 j hj with h | h
    · exact h.le
    · exact h.1.le
  obtain ⟨-, ε, hε⟩ := C53_distance_exists facets[i].1 facets[i].2 P
  obtain ⟨-, ε', hε'⟩ := C53_distance_exists facets[j].1 facets[j].2 P
  obtain ⟨x, hx, hx', -⟩ := C53_plumb_point_dist _ _ P hδi hε
  obtain ⟨y, hy, hy', -⟩ := C53_plumb_point_dist _ _ P hδj hε'
  rw [hd] at hx hy
  rw [FV.fin.inj hx] at hle
  rw [FV.fin.inj hy] at hle
  rw [abs_le] at hx' hy'
  linarith [hx'.1, hx'.2, hy'.1, hy'.2]

/-- A simplex has both end points of the facet among its vertices. -/
def HasFacet (s : Fin 3 → Pt 0) (f : Facet) : Prop := (∃ i, s i = f.1) ∧ ∃ i, s i = f.2

open Classical in
theorem facetMatches_eq {s : Fin 3 → Pt 0} {f : Facet} : facetMatches s f =
    (if s 0 = f.1 ∨ s 0 = f.2 then 1 else 0) + (if s 1 = f.1 ∨ s 1 = f.2 then 1 else 0) + (if s 2 = f.1 ∨ s 2 = f.2 then 1 else 0) := by
  unfold facetMatches
  have : (List.finRange 3) = [0, 1, 2] := by decide
  rw [this]
  simp only [List.filter_cons, List.filter_nil, Bool.or_eq_true, decide_eq_true_eq]
  split <;> split <;> split <;> simp

theorem facetMatches_spec {s : Fin 3 → Pt 0} (hs : Function.Injective s) {f : Facet} (hf : f.1 ≠ f.2) : facetMatches s f ≤ 2 ∧ (facetMatches s f = 2 ↔ HasFacet s f) := by
  have h01 : s 0 ≠ s 1 := fun h => by simpa using hs h
  have h02 : s 0 ≠ s 2 := fun h => by simpa using hs h
  have h12 : s 1 ≠ s 2 := fun h => by simpa using hs h
  have hH : HasFacet s f ↔ (s 0 = f.1 ∨ s 1 = f.1 ∨ s 2 = f.1) ∧ (s 0 = f.2 ∨ s 1 = f.2 ∨ s 2 = f.2) := by
    unfold HasFacet
    simp [Fin.exists_fin_succ]
  rw [facetMatches_eq, hH]
  generalize f.1 = a at *
  generalize f.2 = b at *
  generalize s 0 = x at *
  generalize s 1 = y at *
  generalize s 2 = z at *
  by_cases c1 : x = a <;> by_cases c2 : x = b <;> by_cases c3 : y = a <;> by_cases c4 : y = b <;> by_cases c5 : z = a <;> by_cases c6 : z = b <;>
    simp [c1, c2, c3, c4, c5, c6] <;> (try (subst_vars; simp_all))

theorem argmaxNat_spec {l : List ℕ} (h : l ≠ []) : ∃ (i : ℕ) (hi : i < l.length), argmaxNat l = .ok i ∧ (∀ (j : ℕ) (hj : j < l.length), l[j] ≤ l[i]) ∧
    ∀ (j : ℕ) (hj : j < i), l[j]'(hj.trans hi) < l[i] := by
  have hex : ∃ x ∈ l, l.all (fun y => decide (y ≤ x)) = true := by
    obtain ⟨x, hx, hm⟩ := Finset.exists_max_image l.toFinset id (by simpa [Finset.nonempty_iff_ne_empty] using h)
    exact ⟨x, by simpa using hx, by simpa [List.all_eq_true] using hm⟩
  have hi := List.findIdx_lt_length_of_exists hex
  refine ⟨_, hi, by unfold argmaxNat; rw [if_neg h], ?_, ?_⟩
  · intro j hj
    have := List.findIdx_getElem (w := hi)
    simp only [List.all_eq_true, decide_eq_true_eq] at this
    exact this _ (List.getElem_mem hj)
  · intro j hj
    have hn := List.not_of_lt_findIdx hj
    simp only [Bool.not_eq_true, List.all_eq_false, decide_eq_false_iff_not, decide_eq_true_eq, not_le] at hn
    obtain ⟨y, hy, hlt⟩ := hn
    have := List.findIdx_getElem (w := hi)
    simp only [List.all_eq_true, decide_eq_true_eq] at this
    exact lt_of_lt_of_le hlt (this y hy)

/-- **C54** If some simplex has the facet (two different points) as an edge, `find_simplex_to_facet` returns the first such simplex. -/
theorem C54_simplex_to_facet (simplices : List (Fin 3 → Pt 0)) (hinj : ∀ s ∈ simplices, Function.Injective s) (f : Facet) (hf : f.1 ≠ f.2)
    (hex : ∃ s ∈ simplices, HasFacet s f) :
    ∃ (i : ℕ) (hi : i < simplices.length), findSimplexToFacet simplices f = .ok i ∧ HasFacet simplices[i] f ∧
      ∀ (j : ℕ) (hj : j < i), ¬ HasFacet (simplices[j]'(hj.trans hi)) f := by
  obtain ⟨s, hs, hsf⟩ := hex
  have hne : simplices ≠ [] := by rintro rfl; simp at hs
  obtain ⟨i, hi, h1, h2, h3⟩ := argmaxNat_spec (l := simplices.map fun s => facetMatches s f) (by simpa using hne)
  have hi' : i < simplices.length := by simpa using hi
  have htwo : facetMatches simplices[i] f = 2 := by
    obtain ⟨k, hk, rfl⟩ := List.mem_iff_getElem.mp hs
    have := h2 k (by simpa using hk)
    rw [List.getElem_map, List.getElem_map, ((facetMatches_spec (hinj _ hs) hf).2).mpr hsf] at this
    exact le_antisymm (facetMatches_spec (hinj _ (List.getElem_mem hi')) hf).1 this
  refine ⟨i, hi', h1, ((facetMatches_spec (hinj _ (List.getElem_mem hi')) hf).2).mp htwo, ?_⟩
  intro j hj hc
  have := h3 j hj
  rw [List.getElem_map, List.getElem_map, htwo, ((facetMatches_spec (hinj _ (List.getElem_mem _)) hf).2).mpr hc] at this
  exact lt_irrefl _ this

/-- **C54** `find_nearest_simplex`: if every facet of the hull joins two different points, none of them the target, and is an edge of a simplex, the returned simplex
has the nearest facet as an edge. -/
theorem C54_nearest_simplex (argsort : List (FV ℝ × FV ℝ) → ℕ) (hsort : ∀ keys, keys ≠ [] → IsArgsortFirst keys (argsort keys)) (T : Triangulation)
    (hinj : ∀ s ∈ T.simplexPoints, Function.Injective s) (hhull : T.hullPoints ≠ []) (hf : ∀ f ∈ T.hullPoints, f.1 ≠ f.2 ∧ ∃ s ∈ T.simplexPoints, HasFacet s f)
    (P : Pt 0) (hP : ∀ f ∈ T.hullPoints, f.1 ≠ P ∧ f.2 ≠ P) :
    ∃ (i k : ℕ) (hi : i < T.simplexPoints.length) (hk : k < T.hullPoints.length), findNearestFacet argsort T.hullPoints P = .ok k ∧
      findNearestSimplex argsort T P = .ok i ∧ HasFacet T.simplexPoints[i] T.hullPoints[k] := by
  obtain ⟨k, hk, h1, -⟩ := C54_nearest_facet_distance argsort hsort T.hullPoints hhull P hP
  have hm : T.hullPoints[k] ∈ T.hullPoints := List.getElem_mem hk
  obtain ⟨i, hi, h2, h3, -⟩ := C54_simplex_to_facet T.simplexPoints hinj T.hullPoints[k] (hf _ hm).1 (hf _ hm).2
  refine ⟨i, k, hi, hk, h1, ?_, h3⟩
  unfold findNearestSimplex
  rw [h1]
  simp only [List.getElem?_eq_getElem hk, h2]

/-! ## The hypotheses are satisfiable -/

/-- A function that meets the contract of argsort. -/
theorem exists_argsort : ∃ argsort : List (FV ℝ × FV ℝ) → ℕ, ∀ keys, keys ≠ [] → IsArgsortFirst keys (argsort keys) := by
  classical
  refine ⟨fun keys => if h : keys ≠ [] then (exists_argsortFirst keys h).choose else 0, ?_⟩
  intro keys h
  simp only [dif_pos h]
  exact (exists_argsortFirst keys h).choose_spec

/-- two triangles of the unit square -/
def squareTri : Triangulation where
  points := [![0, 0], ![1, 0], ![0, 1], ![1, 1]]
  simplices := [![⟨0, by simp⟩, ⟨1, by simp⟩, ⟨2, by simp⟩], ![⟨3, by simp⟩, ⟨1, by simp⟩, ⟨2, by simp⟩]]
  hull := [(⟨0, by simp⟩, ⟨1, by simp⟩), (⟨0, by simp⟩, ⟨2, by simp⟩), (⟨1, by simp⟩, ⟨3, by simp⟩), (⟨2, by simp⟩, ⟨3, by simp⟩)]

theorem pt_ext_iff (x y : Pt 0) : x = y ↔ x 0 = y 0 ∧ x 1 = y 1 := by
  constructor
  · rintro rfl; simp
  · rintro ⟨h0, h1⟩; ext i; fin_cases i
    · exact h0
    · exact h1

theorem injective_three {s : Fin 3 → Pt 0} (h01 : s 0 ≠ s 1) (h02 : s 0 ≠ s 2) (h12 : s 1 ≠ s 2) : Function.Injective s := by
  intro i j h
  fin_cases i <;> fin_cases j <;> first | rfl | (exfalso; first | exact h01 h | exact h02 h | exact h12 h | exact h01 h.symm | exact h02 h.symm | exact h12 h.symm)

theorem squareTri_injective : ∀ s ∈ squareTri.simplexPoints, Function.Injective s := by
  intro s hs
  simp only [Triangulation.simplexPoints, squareTri, List.map_cons, List.map_nil, List.mem_cons, List.not_mem_nil, or_false] at hs
  rcases hs with rfl | rfl <;> apply injective_three <;> simp [pt_ext_iff]

theorem squareTri_hull : ∀ f ∈ squareTri.hullPoints, f.1 ≠ f.2 ∧ ∃ s ∈ squareTri.simplexPoints, HasFacet s f := by
  intro f hf
  simp only [Triangulation.hullPoints, squareTri, List.map_cons, List.map_nil, List.mem_cons, List.not_mem_nil, or_false] at hf
  simp only [Triangulation.simplexPoints, squareTri, List.map_cons, List.map_nil, List.mem_cons, List.not_mem_nil, or_false, exists_eq_or_imp, exists_eq_left]
  rcases hf with rfl | rfl | rfl | rfl
  · exact ⟨by simp [pt_ext_iff], Or.inl ⟨⟨0, rfl⟩, ⟨1, rfl⟩⟩⟩
  · exact ⟨by simp [pt_ext_iff], Or.inl ⟨⟨0, rfl⟩, ⟨2, rfl⟩⟩⟩
  · exact ⟨by simp [pt_ext_iff], Or.inr ⟨⟨1, rfl⟩, ⟨0, rfl⟩⟩⟩
  · exact ⟨by simp [pt_ext_iff], Or.inr ⟨⟨2, rfl⟩, ⟨0, rfl⟩⟩⟩

theorem squareTri_target : ∀ f ∈ squareTri.hullPoints, f.1 ≠ (![2, 2] : Pt 0) ∧ f.2 ≠ (![2, 2] : Pt 0) := by
  intro f hf
  simp only [Triangulation.hullPoints, squareTri, List.map_cons, List.map_nil, List.mem_cons, List.not_mem_nil, or_false] at hf
  rcases hf with rfl | rfl | rfl | rfl <;> simp [pt_ext_iff]

/-- all hypotheses of the last theorem hold for the unit square seen from (2, 2) -/
example : ∃ i, ∃ argsort, findNearestSimplex argsort squareTri ![2, 2] = .ok i := by
  obtain ⟨argsort, hs⟩ := exists_argsort
  obtain ⟨i, k, hi, hk, -, h, -⟩ := C54_nearest_simplex argsort hs squareTri squareTri_injective (by simp [Triangulation.hullPoints, squareTri]) squareTri_hull
    ![2, 2] squareTri_target
  exact ⟨i, argsort, h⟩

end Pyirf.Interpolation
