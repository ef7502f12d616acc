import Verif.Interpolation.ExtrapProps
import Verif.Interpolation.NearestProps

/-! # Properties C52, C93: blending over visible edges -/
set_option linter.unusedSectionVars false
set_option linter.unusedSimpArgs false

namespace Pyirf.Interpolation
open Pyirf Pyirf.Np

/-! ## Lemmas -/

theorem mapM_eq_ok {α β : Type} {f : α → Except Err β} {g : α → β} {l : List α} (h : ∀ x ∈ l, f x = .ok (g x)) : l.mapM f = .ok (l.map g) := by
  induction l with
  | nil => rfl
  | cons a l ih =>
    rw [List.mapM_cons, h a List.mem_cons_self, ih fun x hx => h x (List.mem_cons_of_mem _ hx)]
    rfl

theorem mem_of_mapM {α β : Type} {f : α → Except Err β} {l : List α} {r : List β} (h : l.mapM f = .ok r) {y : β} (hy : y ∈ r) : ∃ x ∈ l, f x = .ok y := by
  induction l generalizing r with
  | nil =>
    have : r = [] := (Except.ok.inj h).symm
    subst this; simp at hy
  | cons a l ih =>
    rw [List.mapM_cons] at h
    rcases hf : f a with e | b
    · rw [hf] at h; cases h
    · rcases hm : l.mapM f with e | r'
      · rw [hf, hm] at h; cases h
      · rw [hf, hm] at h
        have : r = b :: r' := (Except.ok.inj h).symm
        subst this
        rcases List.mem_cons.mp hy with rfl | hy
        · exact ⟨a, List.mem_cons_self, hf⟩
        · obtain ⟨x, hx, e⟩ := ih hm hy
          exact ⟨x, List.mem_cons_of_mem _ hx, e⟩

theorem length_of_mapM {α β : Type} {f : α → Except Err β} {l : List α} {r : List β} (h : l.mapM f = .ok r) : r.length = l.length := by
  induction l generalizing r with
  | nil =>
    have : r = [] := (Except.ok.inj h).symm
    subst this; rfl
  | cons a l ih =>
    rw [List.mapM_cons] at h
    rcases hf : f a with e | b
    · rw [hf] at h; cases h
    · rcases hm : l.mapM f with e | r'
      · rw [hf, hm] at h; cases h
      · rw [hf, hm] at h
        have : r = b :: r' := (Except.ok.inj h).symm
        subst this
        simp [ih hm]

theorem mem_otherVertices {s : Fin 3 → Pt 0} {t x : Pt 0} (h : x ∈ otherVertices s t) : x ≠ t ∧ ∃ i, s i = x := by
  unfold otherVertices at h
  simp only [List.mem_map, List.mem_filter, List.mem_finRange, true_and, decide_eq_true_eq] at h
  obtain ⟨i, h1, rfl⟩ := h
  exact ⟨h1, i, rfl⟩

/-- The facets found: the end points are not the target, and they form a simplex with it. -/
theorem mem_visible {TF : Triangulation} {t : Pt 0} {facets : List Facet} (h : findVisibleFacets TF t = .ok facets) {f : Facet} (hf : f ∈ facets) :
    ∃ s ∈ TF.simplexPoints, (∃ i, s i = t) ∧ otherVertices s t = [f.1, f.2] := by
  unfold findVisibleFacets at h
  obtain ⟨s, hs, e⟩ := mem_of_mapM h hf
  simp only [List.mem_filter, decide_eq_true_eq] at hs
  refine ⟨s, hs.1, hs.2, ?_⟩
  split at e
  · next a b he =>
    rw [he]
    have := Except.ok.inj e
    rw [← this]
  · cases e

theorem otherVertices_eq (s : Fin 3 → Pt 0) (t : Pt 0) (h : Function.Injective s) (i : Fin 3) (hi : s i = t) :
    otherVertices s t = match i with | 0 => [s 1, s 2] | 1 => [s 0, s 2] | 2 => [s 0, s 1] := by
  have h01 : s 0 ≠ s 1 := fun e => by simpa using h e
  have h02 : s 0 ≠ s 2 := fun e => by simpa using h e
  have h12 : s 1 ≠ s 2 := fun e => by simpa using h e
  unfold otherVertices
  have : (List.finRange 3) = [0, 1, 2] := by decide
  rw [this]
  subst hi
  fin_cases i <;> simp [List.filter_cons, h01, h02, h12, h01.symm, h02.symm, h12.symm]

/-- **C52** For a triangulation of the grid and the target whose simplices have three different vertices, the visible facets are the edges opposite to the target, one for every simplex
with the target as a vertex. -/
theorem C52_visible_facets (TF : Triangulation) (t : Pt 0) (hinj : ∀ s ∈ TF.simplexPoints, Function.Injective s) :
    ∃ facets, findVisibleFacets TF t = .ok facets ∧
      (∀ f ∈ facets, f.1 ≠ t ∧ f.2 ≠ t ∧ f.1 ≠ f.2 ∧ ∃ s ∈ TF.simplexPoints, (∃ i, s i = t) ∧ HasFacet s f) ∧
      (∀ s ∈ TF.simplexPoints, (∃ i, s i = t) → ∃ f ∈ facets, HasFacet s f) := by
  classical
  have hcase : ∀ s ∈ TF.simplexPoints, (∃ i, s i = t) → ∃ a b, otherVertices s t = [a, b] ∧ a ≠ b := by
    rintro s hs ⟨i, hi⟩
    rw [otherVertices_eq s t (hinj s hs) i hi]
    have h01 : s 0 ≠ s 1 := fun e => by simpa using hinj s hs e
    have h02 : s 0 ≠ s 2 := fun e => by simpa using hinj s hs e
    have h12 : s 1 ≠ s 2 := fun e => by simpa using hinj s hs e
    fin_cases i
    · exact ⟨_, _, rfl, h12⟩
    · exact ⟨_, _, rfl, h02⟩
    · exact ⟨_, _, rfl, h01⟩
  let g : (Fin 3 → Pt 0) → Facet := fun s => ((otherVertices s t).getD 0 0, (otherVertices s t).getD 1 0)
  have hm : findVisibleFacets TF t = .ok ((TF.simplexPoints.filter fun s => decide (∃ i, s i = t)).map g) := by
    unfold findVisibleFacets
    have e : (TF.simplexPoints.filter fun s => decide (∃ i, s i = t)) = (TF.simplexPoints.filter fun s => decide (∃ i, s i = t)) := rfl
    refine Eq.trans ?_ (mapM_eq_ok (l := TF.simplexPoints.filter fun s => decide (∃ i, s i = t)) (g := g)
      (f := fun s => match otherVertices s t with | [a, b] => .ok (a, b) | _ => .error .valueError) ?_)
    · congr 1
    · intro s hs
      simp only [List.mem_filter, decide_eq_true_eq] at hs
      obtain ⟨a, b, hab, -⟩ := hcase s hs.1 hs.2
      simp only [hab, g]; rfl
  refine ⟨_, hm, ?_, ?_⟩
  · intro f hf
    obtain ⟨s, hs, hi, ho⟩ := mem_visible hm hf
    obtain ⟨a, b, hab, hne⟩ := hcase s hs hi
    rw [ho] at hab
    have e1 : f.1 = a := by simpa using (List.cons.inj hab).1
    have e2 : f.2 = b := by simpa using (List.cons.inj (List.cons.inj hab).2).1
    have m1 := mem_otherVertices (x := f.1) (s := s) (t := t) (by rw [ho]; simp)
    have m2 := mem_otherVertices (x := f.2) (s := s) (t := t) (by rw [ho]; simp)
    exact ⟨m1.1, m2.1, by rw [e1, e2]; exact hne, s, hs, hi, m1.2, m2.2⟩
  · intro s hs hi
    obtain ⟨a, b, hab, -⟩ := hcase s hs hi
    have m1 := mem_otherVertices (x := a) (s := s) (t := t) (by rw [hab]; simp)
    have m2 := mem_otherVertices (x := b) (s := s) (t := t) (by rw [hab]; simp)
    refine ⟨g s, List.mem_map.mpr ⟨s, by simp only [List.mem_filter, decide_eq_true_eq]; exact ⟨hs, hi⟩, rfl⟩, ?_, ?_⟩
    · simp only [g, hab]; exact m1.2
    · simp only [g, hab]; exact m2.2

/-! ## Weights -/

theorem dot_sq_le {k : ℕ} (x y : Pt k) : dot x y ^ 2 ≤ dot x x * dot y y := by
  have h1 : (∑ i, x i * y i) ^ 2 ≤ (∑ i, x i ^ 2) * ∑ i, y i ^ 2 := Finset.sum_mul_sq_le_sq_mul_sq _ _ _
  have e1 : ∀ x : Pt k, ∑ i, x i ^ 2 = dot x x := fun x => Finset.sum_congr rfl fun i _ => by ring
  rwa [e1, e1] at h1

theorem abs_cosAngle_le {f : Facet} {t : Pt 0} (h1 : f.1 ≠ t) (h2 : f.2 ≠ t) : -1 ≤ cosAngle f t ∧ cosAngle f t ≤ 1 := by
  have p1 : 0 < euclid f.1 t := by rw [← norm2_sub_eq]; exact norm2_pos (sub_ne_zero.mpr h1)
  have p2 : 0 < euclid f.2 t := by rw [← norm2_sub_eq]; exact norm2_pos (sub_ne_zero.mpr h2)
  have hd : |dot (f.2 - t) (f.1 - t)| ≤ euclid f.1 t * euclid f.2 t := by
    rw [← norm2_sub_eq, ← norm2_sub_eq, norm2_eq, norm2_eq, ← Real.sqrt_mul (dot_self_nonneg _)]
    apply Real.abs_le_sqrt
    rw [mul_comm]; exact dot_sq_le _ _
  rw [← abs_le]
  unfold cosAngle
  rw [abs_div, abs_of_pos (mul_pos p1 p2), div_le_one (mul_pos p1 p2)]
  exact hd

/-- A facet that spans a triangle with the target is seen under a positive angle. -/
theorem cosAngle_lt_one {f : Facet} {t : Pt 0} (h1 : f.1 ≠ t) (h2 : f.2 ≠ t) (ha : crossNorm2 (f.2 - t) (f.1 - t) ≠ 0) : cosAngle f t < 1 := by
  rcases (abs_cosAngle_le h1 h2).2.lt_or_eq with h | h
  · exact h
  · exfalso; apply ha
    have p1 : 0 < euclid f.1 t := by rw [← norm2_sub_eq]; exact norm2_pos (sub_ne_zero.mpr h1)
    have p2 : 0 < euclid f.2 t := by rw [← norm2_sub_eq]; exact norm2_pos (sub_ne_zero.mpr h2)
    unfold cosAngle at h
    rw [div_eq_one_iff_eq (mul_pos p1 p2).ne'] at h
    have e1 : euclid f.1 t ^ 2 = dot (f.1 - t) (f.1 - t) := by rw [← norm2_sub_eq, norm2_eq, Real.sq_sqrt (dot_self_nonneg _)]
    have e2 : euclid f.2 t ^ 2 = dot (f.2 - t) (f.2 - t) := by rw [← norm2_sub_eq, norm2_eq, Real.sq_sqrt (dot_self_nonneg _)]
    have := crossNorm2_sq (f.2 - t) (f.1 - t)
    rw [h, ← e1, ← e2] at this
    have h0 : crossNorm2 (f.2 - t) (f.1 - t) ^ 2 = 0 := by rw [this]; ring
    exact pow_eq_zero_iff (by norm_num) |>.mp h0

/-- The angle under which a facet is seen. -/
noncomputable def viewAngle (f : Facet) (t : Pt 0) : ℝ := Real.arccos (cosAngle f t)

theorem rawWeight_eq {f : Facet} {t : Pt 0} (h1 : f.1 ≠ t) (h2 : f.2 ≠ t) (m : ℕ) :
    fpow (m + 1) (farccos (pointFacetAngle f.1 f.2 t)) = .fin (viewAngle f t ^ (m + 1)) := by
  rw [pointFacetAngle_eq h1 h2]
  have := abs_cosAngle_le h1 h2
  unfold cosAngle at this
  rw [← norm2_sub_eq, ← norm2_sub_eq] at this
  unfold farccos
  simp only [this, and_self, if_true]
  rfl

/-- **C52** If no facet has the target as an end point and one of them spans a triangle of nonzero area with the target, the weights are finite, >= 0 and sum to 1; they are
proportional to the (m+1)-th powers of the angles under which the facets are seen. -/
theorem C52_weights (facets : List Facet) (t : Pt 0) (m : ℕ) (hne : ∀ f ∈ facets, f.1 ≠ t ∧ f.2 ≠ t)
    (hpos : ∃ f ∈ facets, (f.2 0 - t 0) * (f.1 1 - t 1) - (f.2 1 - t 1) * (f.1 0 - t 0) ≠ 0) :
    0 < (facets.map fun f => viewAngle f t ^ (m + 1)).sum ∧
    extrapolationWeights facets t m = facets.map (fun f => .fin (viewAngle f t ^ (m + 1) / (facets.map fun f => viewAngle f t ^ (m + 1)).sum)) ∧
    (∀ f ∈ facets, 0 ≤ viewAngle f t ^ (m + 1) / (facets.map fun f => viewAngle f t ^ (m + 1)).sum) ∧
    (facets.map fun f => viewAngle f t ^ (m + 1) / (facets.map fun f => viewAngle f t ^ (m + 1)).sum).sum = 1 := by
  have hnn : ∀ f : Facet, 0 ≤ viewAngle f t ^ (m + 1) := fun f => pow_nonneg (Real.arccos_nonneg _) _
  have hsum : 0 < (facets.map fun f => viewAngle f t ^ (m + 1)).sum := by
    obtain ⟨f, hf, ha⟩ := hpos
    have hlt := cosAngle_lt_one (hne f hf).1 (hne f hf).2 (by unfold crossNorm2; simpa using ha)
    have hp : 0 < viewAngle f t ^ (m + 1) := pow_pos (Real.arccos_pos.mpr hlt) _
    apply lt_of_lt_of_le hp
    apply List.single_le_sum
    · intro x hx
      obtain ⟨f, -, rfl⟩ := List.mem_map.mp hx
      exact hnn f
    · exact List.mem_map.mpr ⟨f, hf, rfl⟩
  refine ⟨hsum, ?_, fun f _ => div_nonneg (hnn f) hsum.le, ?_⟩
  · unfold extrapolationWeights
    simp only []
    have hraw : (facets.map fun f => fpow (m + 1) (farccos (pointFacetAngle f.1 f.2 t))) = (facets.map fun f => viewAngle f t ^ (m + 1)).map .fin := by
      rw [List.map_map]
      apply List.map_congr_left
      intro f hf
      exact rawWeight_eq (hne f hf).1 (hne f hf).2 m
    rw [hraw, fsum_fin, List.map_map, List.map_map]
    apply List.map_congr_left
    intro f _
    exact FV.fin_div_fin _ _ hsum.ne'
  · have : (facets.map fun f => viewAngle f t ^ (m + 1) / (facets.map fun f => viewAngle f t ^ (m + 1)).sum) =
        (facets.map fun f => viewAngle f t ^ (m + 1)).map fun x => x * ((facets.map fun f => viewAngle f t ^ (m + 1)).sum)⁻¹ := by
      rw [List.map_map]; rfl
    rw [this, List.sum_map_mul_right, List.map_id', mul_inv_cancel₀ hsum.ne']

/-- **C52** `m` must be a positive integer: no number raises TypeError, every other number ValueError. -/
theorem C52_order (o : NormOrd) : (∃ p : ℕ, 0 < p ∧ o = .num (.fin (p : ℝ)) ∧ checkM o = .ok p) ∨ (o = .notNumber ∧ checkM o = .error .typeError) ∨
    ((∃ x, o = .num x ∧ ¬ ∃ p : ℕ, 0 < p ∧ x = .fin (p : ℝ)) ∧ checkM o = .error .valueError) := by
  rcases o with _ | x
  · right; left; exact ⟨rfl, rfl⟩
  · have e : checkM (.num x) = checkOrd (.num x) := rfl
    rcases C48_order (.num x) with ⟨p, h1, h2, h3⟩ | h
    · left; exact ⟨p, h1, h2, e.trans h3⟩
    · right; right
      refine ⟨⟨x, rfl, ?_⟩, e.trans h⟩
      rintro ⟨p, hp, rfl⟩
      rw [(checkOrd_ok_iff _ p).mpr ⟨hp, rfl⟩] at h
      cases h

/-! ## Shapes -/

theorem broadcastRev_eq (l : List ℕ) (L : ℕ) : ND.broadcastRev (List.replicate l.length 1 ++ [L]) (l ++ [L]) = some (l ++ [L]) := by
  induction l with
  | nil => simp [ND.broadcastRev]
  | cons a l ih =>
    simp only [List.length_cons, List.replicate_succ, List.cons_append, ND.broadcastRev, ih]
    by_cases h : a = 1
    · simp [h]
    · simp [h, Ne.symm h]

theorem broadcastRev_nil_right (l : List ℕ) : ND.broadcastRev l [] = some l := by cases l <;> simp [ND.broadcastRev]

theorem broadcastRev_short (l : List ℕ) (d L : ℕ) (h : l.length ≤ d) :
    ND.broadcastRev (List.replicate d 1 ++ [L]) l = some (l ++ List.replicate (d - l.length) 1 ++ [L]) := by
  induction l generalizing d with
  | nil => simp [broadcastRev_nil_right]
  | cons a l ih =>
    cases d with
    | zero => simp at h
    | succ d =>
      simp only [List.replicate_succ, List.cons_append, ND.broadcastRev, ih d (by simpa using h)]
      have e : d + 1 - (a :: l).length = d - l.length := by simp
      by_cases h1 : a = 1
      · simp [h1]
      · rw [e]; simp [h1, Ne.symm h1]

theorem unsqueeze_no_one {s idx : List ℕ} (h : 1 ∉ s) (hl : idx.length = s.length) : ND.unsqueeze s idx = idx := by
  induction s generalizing idx with
  | nil => cases idx <;> simp_all [ND.unsqueeze]
  | cons a s ih =>
    cases idx with
    | nil => simp at hl
    | cons i idx =>
      simp only [List.mem_cons, not_or] at h
      simp only [ND.unsqueeze, if_neg (Ne.symm h.1), List.headD_cons, List.tail_cons]
      rw [ih h.2 (by simpa using hl)]

theorem filter_no_one {s : List ℕ} (h : 1 ∉ s) : s.filter (· ≠ 1) = s := by
  rw [List.filter_eq_self]
  intro a ha
  simp only [decide_eq_true_eq]
  rintro rfl; exact h ha

theorem zipWith_no_one {s idx : List ℕ} (h : 1 ∉ s) (hl : idx.length = s.length) : List.zipWith (fun n i => if n = 1 then 0 else i) s idx = idx := by
  induction s generalizing idx with
  | nil => cases idx <;> simp_all
  | cons a s ih =>
    cases idx with
    | nil => simp at hl
    | cons i idx =>
      simp only [List.mem_cons, not_or] at h
      rw [List.zipWith_cons_cons, if_neg (Ne.symm h.1), ih h.2 (by simpa using hl)]

theorem findSimplexToFacet_ok (T : Triangulation) (h : T.simplices ≠ []) (f : Facet) : ∃ i, i < T.simplices.length ∧ findSimplexToFacet T.simplexPoints f = .ok i := by
  obtain ⟨i, hi, h1, -⟩ := argmaxNat_spec (l := T.simplexPoints.map fun s => facetMatches s f) (by simpa [Triangulation.simplexPoints] using h)
  exact ⟨i, by simpa [Triangulation.simplexPoints] using hi, h1⟩

/-! ## C52: blending -/

/-- A simplex of the triangulation with the target as vertex spans a triangle of nonzero area. -/
def TargetNonDegenerate (TF : Triangulation) (t : Pt 0) : Prop := ∀ s ∈ TF.simplexPoints, (∃ i, s i = t) → signedArea2 (fun i => toPair (s i)) ≠ 0

theorem visible_area {TF : Triangulation} {t : Pt 0} (hinj : ∀ s ∈ TF.simplexPoints, Function.Injective s) (hnd : TargetNonDegenerate TF t) {facets : List Facet}
    (h : findVisibleFacets TF t = .ok facets) {f : Facet} (hf : f ∈ facets) : f.1 ≠ t ∧ f.2 ≠ t ∧ (f.2 0 - t 0) * (f.1 1 - t 1) - (f.2 1 - t 1) * (f.1 0 - t 0) ≠ 0 := by
  obtain ⟨s, hs, ⟨i, hi⟩, ho⟩ := mem_visible h hf
  have m1 := mem_otherVertices (x := f.1) (s := s) (t := t) (by rw [ho]; simp)
  have m2 := mem_otherVertices (x := f.2) (s := s) (t := t) (by rw [ho]; simp)
  refine ⟨m1.1, m2.1, ?_⟩
  have ha := hnd s hs ⟨i, hi⟩
  rw [otherVertices_eq s t (hinj s hs) i hi] at ho
  intro hz
  apply ha
  show (s 1 0 - s 0 0) * (s 2 1 - s 0 1) - (s 2 0 - s 0 0) * (s 1 1 - s 0 1) = 0
  subst hi
  fin_cases i
  · have e1 : s 1 = f.1 := (List.cons.inj ho).1
    have e2 : s 2 = f.2 := (List.cons.inj (List.cons.inj ho).2).1
    change (f.2 0 - s 0 0) * (f.1 1 - s 0 1) - (f.2 1 - s 0 1) * (f.1 0 - s 0 0) = 0 at hz
    rw [e1, e2]
    linear_combination -hz
  · have e1 : s 0 = f.1 := (List.cons.inj ho).1
    have e2 : s 2 = f.2 := (List.cons.inj (List.cons.inj ho).2).1
    change (f.2 0 - s 1 0) * (f.1 1 - s 1 1) - (f.2 1 - s 1 1) * (f.1 0 - s 1 0) = 0 at hz
    rw [e1, e2]
    linear_combination hz
  · have e1 : s 0 = f.1 := (List.cons.inj ho).1
    have e2 : s 1 = f.2 := (List.cons.inj (List.cons.inj ho).2).1
    change (f.2 0 - s 2 0) * (f.1 1 - s 2 1) - (f.2 1 - s 2 1) * (f.1 0 - s 2 0) = 0 at hz
    rw [e1, e2]
    linear_combination -hz

theorem foldr_add_fin (n : ℕ) (g : ℕ → ℝ) : ((List.range n).map fun i => (FV.fin (g i) : FV ℝ)).foldr (· + ·) 0 = .fin (∑ i ∈ Finset.range n, g i) := by
  have : ((List.range n).map fun i => (FV.fin (g i) : FV ℝ)) = ((List.range n).map g).map .fin := by rw [List.map_map]; rfl
  rw [this]
  have h := fsum_fin ((List.range n).map g)
  unfold fsum at h
  rw [h]
  congr 1

/-- **C52** (blending) Nondegenerate triangulations of the grid and of grid and target, at least two visible facets, finite parameters none of whose trailing axes has length one:
the result has the shape of one parameter entry and is the mean of the extrapolations from the simplices of the visible facets, with weights >= 0 that sum to 1 and are
proportional to the (m+1)-th powers of the angles under which the facets are seen. -/
theorem C52_blend (argsort : List (FV ℝ × FV ℝ) → ℕ) (T TF : Triangulation) (hT : T.simplices ≠ []) (hnd : ∀ s ∈ T.simplices, NonDegenerate T s) (t : Pt 0)
    (hinj : ∀ s ∈ TF.simplexPoints, Function.Injective s) (hTF : TargetNonDegenerate TF t) (facets : List Facet) (hfac : findVisibleFacets TF t = .ok facets)
    (hL : 2 ≤ facets.length) (m : ℕ) (params : ND (FV ℝ)) {a : ℕ} {s : List ℕ} {p : List ℕ → ℝ} (hp : FiniteParams params T.points.length a s p) (h1 : 1 ∉ a :: s) :
    ∃ (w : ℕ → ℝ) (ind : ℕ → ℕ) (e : ℕ → List ℕ → ℝ) (r : ND (FV ℝ)),
      (∀ k < facets.length, 0 ≤ w k) ∧ ∑ k ∈ Finset.range facets.length, w k = 1 ∧
      (∀ (j k : ℕ) (hj : j < facets.length) (hk : k < facets.length), w j * viewAngle facets[k] t ^ (m + 1) = w k * viewAngle facets[j] t ^ (m + 1)) ∧
      (∀ (k : ℕ) (hk : k < facets.length), ind k < T.simplices.length ∧ findSimplexToFacet T.simplexPoints facets[k] = .ok (ind k) ∧
        simplexExtrapolate2D T params t (ind k) = .ok ⟨1 :: a :: s, fun idx => .fin (e k idx.tail)⟩) ∧
      visibleEdgesExtrapolate argsort T TF m params t = .ok r ∧ r.shape = 1 :: a :: s ∧
      ∀ idx, idx.length = s.length + 1 → r.get (0 :: idx) = .fin (∑ k ∈ Finset.range facets.length, w k * e k idx) := by
  obtain ⟨wpos, weq, wnn, wsum⟩ := C52_weights facets t m (fun f hf => ⟨(visible_area hinj hTF hfac hf).1, (visible_area hinj hTF hfac hf).2.1⟩)
    (by
      have h0 : facets[0] ∈ facets := List.getElem_mem _
      exact ⟨_, h0, (visible_area hinj hTF hfac h0).2.2⟩)
  have hind : ∀ f : Facet, ∃ i, i < T.simplices.length ∧ findSimplexToFacet T.simplexPoints f = .ok i := findSimplexToFacet_ok T hT
  choose ind hind1 hind2 using hind
  have hext : ∀ i, ∃ g : List ℕ → ℝ, i < T.simplices.length → simplexExtrapolate2D T params t i = .ok ⟨1 :: a :: s, fun idx => .fin (g idx.tail)⟩ := by
    intro i
    by_cases hi : i < T.simplices.length
    · obtain ⟨c, -, -, -, h4⟩ := simplexExtrapolate2D_eq T params hp t i hi (hnd _ (List.getElem_mem hi))
      exact ⟨fun idx => ∑ j, c j * p ((T.simplices[i] j).val :: idx), fun _ => h4⟩
    · exact ⟨fun _ => 0, fun h => absurd h hi⟩
  choose ex hex using hext
  set S := (facets.map fun f => viewAngle f t ^ (m + 1)).sum with hS
  set L := facets.length with hLd
  let w : ℕ → ℝ := fun k => if hk : k < L then viewAngle facets[k] t ^ (m + 1) / S else 0
  let e : ℕ → List ℕ → ℝ := fun k => if hk : k < L then ex (ind facets[k]) else fun _ => 0
  have hres : ∃ r, visibleEdgesExtrapolate argsort T TF m params t = .ok r ∧ r.shape = 1 :: a :: s ∧
      ∀ idx, idx.length = s.length + 1 → r.get (0 :: idx) = .fin (∑ k ∈ Finset.range L, w k * e k idx) := by
    unfold visibleEdgesExtrapolate
    rw [hfac]
    simp only []
    rw [if_neg (by omega), asParams_cons hp.shape_eq, mapM_eq_ok (g := ind) fun f _ => hind2 f]
    simp only []
    rw [mapM_eq_ok (g := fun i => ⟨1 :: a :: s, fun idx => .fin (ex i idx.tail)⟩) (by
      intro i hi
      obtain ⟨f, hf, rfl⟩ := List.mem_map.mp hi
      exact hex _ (hind1 f))]
    simp only [weq, List.map_map, List.length_map, hp.shape_eq, List.length_cons, Nat.add_sub_cancel]
    have hsh : (List.map (ND.shape ∘ ND.squeeze ∘ (fun i => (⟨1 :: a :: s, fun idx => .fin (ex i idx.tail)⟩ : ND (FV ℝ))) ∘ ind) facets).headD [] = a :: s := by
      have : facets ≠ [] := by rintro h; rw [h] at hLd; simp at hLd; omega
      obtain ⟨f, l, rfl⟩ := List.exists_cons_of_ne_nil this
      simp only [List.map_cons, List.headD_cons, Function.comp, ND.squeeze]
      rw [List.filter_cons_of_neg (by simp)]
      exact filter_no_one h1
    rw [hsh]
    unfold ND.mul
    simp only [ND.stack, List.length_map, ← hLd]
    have hb : ND.broadcastRev (L :: List.replicate (s.length + 1) 1).reverse (L :: a :: s).reverse = some (L :: a :: s).reverse := by
      have := broadcastRev_eq (a :: s).reverse L
      rw [List.length_reverse, List.length_cons] at this
      rw [List.reverse_cons, List.reverse_cons, List.reverse_replicate]
      exact this
    rw [hb]
    simp only [List.reverse_reverse, ND.sum0, ND.newaxis, List.tail_cons, List.headD_cons]
    refine ⟨_, rfl, rfl, ?_⟩
    intro idx hidx
    simp only [List.tail_cons]
    rw [← foldr_add_fin]
    congr 1
    apply List.map_congr_left
    intro k hk
    have hk' : k < L := List.mem_range.mp hk
    have hW : (ND.broadcastIdx (L :: List.replicate (s.length + 1) 1) (k :: idx)).headD 0 = k := by
      unfold ND.broadcastIdx
      simp only [List.length_cons, List.length_replicate, hidx, Nat.sub_self, List.drop_zero, List.zipWith_cons_cons, List.headD_cons]
      rw [if_neg (by omega)]
    have hE : ND.broadcastIdx (L :: a :: s) (k :: idx) = k :: idx := by
      unfold ND.broadcastIdx
      simp only [List.length_cons, hidx, Nat.sub_self, List.drop_zero]
      apply zipWith_no_one
      · simp only [List.mem_cons, not_or] at h1 ⊢
        exact ⟨by omega, h1⟩
      · simp [hidx]
    rw [hW, hE]
    simp only [List.headD_cons, List.tail_cons]
    rw [List.getElem?_map, List.getElem?_eq_getElem (by rw [← hLd]; exact hk'), List.getD_eq_getElem?_getD, List.getElem?_map,
      List.getElem?_eq_getElem (by rw [← hLd]; exact hk')]
    simp only [Option.map_some, Option.getD_some, Function.comp, ND.squeeze]
    have hu : ND.unsqueeze (1 :: a :: s) idx = 0 :: idx := by
      have h2 := unsqueeze_no_one h1 (idx := idx) (by simp [hidx])
      conv_lhs => unfold ND.unsqueeze
      rw [if_pos rfl, h2]
    rw [hu]
    simp only [List.tail_cons, w, e, dif_pos hk']
    rfl
  obtain ⟨r, r1, r2, r3⟩ := hres
  have hw : ∀ (k : ℕ) (hk : k < facets.length), w k = viewAngle facets[k] t ^ (m + 1) / S := fun k hk => dif_pos hk
  have he : ∀ (k : ℕ) (hk : k < facets.length), e k = ex (ind facets[k]) := fun k hk => dif_pos hk
  let ik : ℕ → ℕ := fun k => if hk : k < L then ind facets[k] else 0
  have hik : ∀ (k : ℕ) (hk : k < facets.length), ik k = ind facets[k] := fun k hk => dif_pos hk
  refine ⟨w, ik, e, r, ?_, ?_, ?_, ?_, r1, r2, r3⟩
  · intro k hk
    rw [hw k hk]
    exact wnn _ (List.getElem_mem hk)
  · rw [← wsum, ← Fin.sum_univ_eq_sum_range]
    rw [← Fin.sum_univ_fun_getElem]
    apply Finset.sum_congr rfl
    intro i _
    rw [hw i.val i.isLt]
  · intro j k hj hk
    rw [hw j hj, hw k hk]
    ring
  · intro k hk
    rw [hik k hk, he k hk]
    exact ⟨hind1 _, hind2 _, hex _ (hind1 _)⟩

/-- **C52** The blended extrapolation lies between the smallest and the largest of the single-simplex extrapolations. -/
theorem C52_between {L : ℕ} {w : ℕ → ℝ} {e : ℕ → ℝ} (hw : ∀ k < L, 0 ≤ w k) (hs : ∑ k ∈ Finset.range L, w k = 1) {lo hi : ℝ} (h : ∀ k < L, lo ≤ e k ∧ e k ≤ hi) :
    lo ≤ ∑ k ∈ Finset.range L, w k * e k ∧ ∑ k ∈ Finset.range L, w k * e k ≤ hi := by
  constructor
  · calc lo = ∑ k ∈ Finset.range L, w k * lo := by rw [← Finset.sum_mul, hs, one_mul]
      _ ≤ _ := Finset.sum_le_sum fun k hk => mul_le_mul_of_nonneg_left (h k (Finset.mem_range.mp hk)).1 (hw k (Finset.mem_range.mp hk))
  · calc ∑ k ∈ Finset.range L, w k * e k ≤ ∑ k ∈ Finset.range L, w k * hi :=
        Finset.sum_le_sum fun k hk => mul_le_mul_of_nonneg_left (h k (Finset.mem_range.mp hk)).2 (hw k (Finset.mem_range.mp hk))
      _ = hi := by rw [← Finset.sum_mul, hs, one_mul]

/-- **C52** The blended extrapolation is exact for parameters that are an affine function of the grid point (same hypotheses). -/
theorem C52_affine (argsort : List (FV ℝ × FV ℝ) → ℕ) (T TF : Triangulation) (hT : T.simplices ≠ []) (hnd : ∀ s ∈ T.simplices, NonDegenerate T s) (t : Pt 0)
    (hinj : ∀ s ∈ TF.simplexPoints, Function.Injective s) (hTF : TargetNonDegenerate TF t) (facets : List Facet) (hfac : findVisibleFacets TF t = .ok facets)
    (hL : 2 ≤ facets.length) (m : ℕ) (params : ND (FV ℝ)) {n : ℕ} {s : List ℕ} {p : List ℕ → ℝ} (hp : FiniteParams params T.points.length n s p) (h1 : 1 ∉ n :: s)
    (a b c : List ℕ → ℝ) (habc : ∀ (k : ℕ) (hk : k < T.points.length) (idx), p (k :: idx) = a idx * T.points[k] 0 + b idx * T.points[k] 1 + c idx) :
    ∃ r, visibleEdgesExtrapolate argsort T TF m params t = .ok r ∧ r.shape = 1 :: n :: s ∧
      ∀ idx, idx.length = s.length + 1 → r.get (0 :: idx) = .fin (a idx * t 0 + b idx * t 1 + c idx) := by
  obtain ⟨w, ind, e, r, -, h2, -, h4, h5, h6, h7⟩ := C52_blend argsort T TF hT hnd t hinj hTF facets hfac hL m params hp h1
  refine ⟨r, h5, h6, ?_⟩
  intro idx hidx
  rw [h7 idx hidx]
  congr 1
  have he : ∀ k ∈ Finset.range facets.length, w k * e k idx = w k * (a idx * t 0 + b idx * t 1 + c idx) := by
    intro k hk
    obtain ⟨hi, -, he⟩ := h4 k (Finset.mem_range.mp hk)
    obtain ⟨cc, c1, c2, -, c4⟩ := simplexExtrapolate2D_eq T params hp t (ind k) hi (hnd _ (List.getElem_mem hi))
    rw [he] at c4
    have hg := congrFun (ND.mk.inj (Except.ok.inj c4)).2 (0 :: idx)
    simp only [List.tail_cons] at hg
    rw [FV.fin.inj hg]
    congr 1
    rw [← c2 0, ← c2 1, show c idx = c idx * ∑ i, cc i by rw [c1, mul_one], Finset.mul_sum, Finset.mul_sum, Finset.mul_sum, ← Finset.sum_add_distrib, ← Finset.sum_add_distrib]
    apply Finset.sum_congr rfl
    intro i _
    rw [habc _ (T.simplices[ind k] i).isLt]
    simp only [Fin.getElem_fin]
    ring
  rw [Finset.sum_congr rfl he, ← Finset.sum_mul, h2, one_mul]

/-- **C52** With one visible facet the result is that of the nearest simplex extrapolator. -/
theorem C52_single_facet (argsort : List (FV ℝ × FV ℝ) → ℕ) (T TF : Triangulation) (t : Pt 0) (f : Facet) (hfac : findVisibleFacets TF t = .ok [f]) (m : ℕ) (params : ND (FV ℝ)) :
    visibleEdgesExtrapolate argsort T TF m params t = nearestSimplexExtrapolate argsort T params t := by
  unfold visibleEdgesExtrapolate
  rw [hfac]
  simp

/-! ## C93 -/

/-- **C93** The shape of the result with at least two visible facets and a trailing axis of length one: the number of facets appears as an axis, so it is never the
documented shape `(1, ...)` of one parameter entry. -/
theorem C93_wrong_shape (argsort : List (FV ℝ × FV ℝ) → ℕ) (T TF : Triangulation) (hT : T.simplices ≠ []) (hnd : ∀ s ∈ T.simplices, NonDegenerate T s) (t : Pt 0)
    (facets : List Facet) (hfac : findVisibleFacets TF t = .ok facets)
    (hL : 2 ≤ facets.length) (m : ℕ) (params : ND (FV ℝ)) {a : ℕ} {s : List ℕ} {p : List ℕ → ℝ} (hp : FiniteParams params T.points.length a s p) (h1 : 1 ∈ a :: s) :
    ∃ r, visibleEdgesExtrapolate argsort T TF m params t = .ok r ∧
      r.shape = List.replicate ((a :: s).count 1) 1 ++ facets.length :: (a :: s).filter (· ≠ 1) ∧ r.shape ≠ 1 :: a :: s := by
  have hind : ∀ f : Facet, ∃ i, i < T.simplices.length ∧ findSimplexToFacet T.simplexPoints f = .ok i := findSimplexToFacet_ok T hT
  choose ind hind1 hind2 using hind
  have hext : ∀ i, ∃ g : List ℕ → ℝ, i < T.simplices.length → simplexExtrapolate2D T params t i = .ok ⟨1 :: a :: s, fun idx => .fin (g idx.tail)⟩ := by
    intro i
    by_cases hi : i < T.simplices.length
    · obtain ⟨c, -, -, -, h4⟩ := simplexExtrapolate2D_eq T params hp t i hi (hnd _ (List.getElem_mem hi))
      exact ⟨fun idx => ∑ j, c j * p ((T.simplices[i] j).val :: idx), fun _ => h4⟩
    · exact ⟨fun _ => 0, fun h => absurd h hi⟩
  choose ex hex using hext
  have hwl : (extrapolationWeights facets t m).length = facets.length := by simp [extrapolationWeights]
  set L := facets.length with hLd
  set q := (a :: s).filter (· ≠ 1) with hq
  have hcount : q.length + (a :: s).count 1 = s.length + 1 := by
    have h := List.length_eq_length_filter_add (l := a :: s) (fun x => decide (x ≠ 1))
    rw [List.length_cons] at h
    rw [hq, h, List.count_eq_length_filter]
    congr 2
    apply List.filter_congr
    intro x _
    by_cases hx : x = 1 <;> simp [hx]
  have hpos : 0 < (a :: s).count 1 := List.count_pos_iff.mpr h1
  have hshape : ∃ r, visibleEdgesExtrapolate argsort T TF m params t = .ok r ∧ r.shape = List.replicate ((a :: s).count 1) 1 ++ L :: q := by
    unfold visibleEdgesExtrapolate
    rw [hfac]
    simp only []
    rw [if_neg (by omega), asParams_cons hp.shape_eq, mapM_eq_ok (g := ind) fun f _ => hind2 f]
    simp only []
    rw [mapM_eq_ok (g := fun i => ⟨1 :: a :: s, fun idx => .fin (ex i idx.tail)⟩) (by
      intro i hi
      obtain ⟨f, hf, rfl⟩ := List.mem_map.mp hi
      exact hex _ (hind1 f))]
    simp only [hwl, List.map_map, List.length_map, hp.shape_eq, List.length_cons, Nat.add_sub_cancel]
    have hsh : (List.map (ND.shape ∘ ND.squeeze ∘ (fun i => (⟨1 :: a :: s, fun idx => .fin (ex i idx.tail)⟩ : ND (FV ℝ))) ∘ ind) facets).headD [] = q := by
      have : facets ≠ [] := by rintro h; rw [h] at hLd; simp at hLd; omega
      obtain ⟨f, l, rfl⟩ := List.exists_cons_of_ne_nil this
      simp only [List.map_cons, List.headD_cons, Function.comp, ND.squeeze]
      rw [List.filter_cons_of_neg (by simp)]
    rw [hsh]
    unfold ND.mul
    simp only [ND.stack, List.length_map, ← hLd]
    have hb : ND.broadcastRev (L :: List.replicate (s.length + 1) 1).reverse (L :: q).reverse =
        some (L :: (List.replicate ((a :: s).count 1 - 1) 1 ++ L :: q)).reverse := by
      rw [List.reverse_cons (a := L) (as := List.replicate _ _), List.reverse_replicate, broadcastRev_short]
      · congr 1
        rw [List.reverse_cons (as := List.replicate _ _ ++ _), List.reverse_append, List.reverse_replicate]
        congr 3
        simp only [List.length_reverse, List.length_cons]
        omega
      · simp only [List.length_reverse, List.length_cons]
        omega
    rw [hb]
    simp only [List.reverse_reverse, ND.sum0, ND.newaxis, List.tail_cons, List.headD_cons]
    have hr : List.replicate ((a :: s).count 1) 1 ++ L :: q = 1 :: (List.replicate ((a :: s).count 1 - 1) 1 ++ L :: q) := by
      obtain ⟨c, hc⟩ : ∃ c, (a :: s).count 1 = c + 1 := ⟨(a :: s).count 1 - 1, by omega⟩
      rw [hc, List.replicate_succ]; rfl
    rw [hr]
    rcases hl : (List.replicate ((a :: s).count 1 - 1) 1 ++ L :: q) with _ | ⟨x, l⟩
    · simp at hl
    · exact ⟨_, rfl, rfl⟩
  obtain ⟨r, r1, r2⟩ := hshape
  refine ⟨r, r1, r2, ?_⟩
  rw [r2]
  intro hcon
  have hf := congrArg (List.filter (· ≠ 1)) hcon
  rw [List.filter_append, List.filter_cons_of_pos (by simp; omega), List.filter_cons_of_neg (by simp)] at hf
  have : (List.replicate ((a :: s).count 1) 1).filter (fun x => decide (x ≠ 1)) = [] := by
    rw [List.filter_eq_nil_iff]
    intro x hx
    have := List.eq_of_mem_replicate hx
    simp [this]
  rw [this, List.nil_append, ← hq, List.filter_eq_self.mpr] at hf
  · have := congrArg List.length hf
    simp at this
  · intro x hx
    rw [hq] at hx
    exact (List.mem_filter.mp hx).2

/-- The claim of **C93**: for parameters of any shape `(n_points, ...)`, one axis or more, an array of shape `(1, ...)` of one parameter entry is returned (for parameters with one axis, `(1, 1)`). -/
def VisibleEdgesShape : Prop :=
  ∀ (argsort : List (FV ℝ × FV ℝ) → ℕ) (T TF : Triangulation) (t : Pt 0) (m : ℕ) (params : ND (FV ℝ)) (n : ℕ) (s : List ℕ) (p : List ℕ → ℝ),
    T.simplices ≠ [] → (∀ s ∈ T.simplices, NonDegenerate T s) → TF.points = T.points ++ [t] → (∀ s ∈ TF.simplexPoints, Function.Injective s) → TargetNonDegenerate TF t →
    (∃ s ∈ TF.simplexPoints, ∃ i, s i = t) → FiniteParams params T.points.length n s p →
    ∀ r, visibleEdgesExtrapolate argsort T TF m params t = .ok r → r.shape = 1 :: n :: s

/-- the unit square with the target (2, 2) -/
def squareTri5 : Triangulation where
  points := [![0, 0], ![1, 0], ![0, 1], ![1, 1], ![2, 2]]
  simplices := [![⟨0, by simp⟩, ⟨1, by simp⟩, ⟨2, by simp⟩], ![⟨3, by simp⟩, ⟨1, by simp⟩, ⟨2, by simp⟩], ![⟨1, by simp⟩, ⟨3, by simp⟩, ⟨4, by simp⟩],
    ![⟨2, by simp⟩, ⟨3, by simp⟩, ⟨4, by simp⟩]]
  hull := [(⟨0, by simp⟩, ⟨1, by simp⟩), (⟨0, by simp⟩, ⟨2, by simp⟩), (⟨1, by simp⟩, ⟨4, by simp⟩), (⟨2, by simp⟩, ⟨4, by simp⟩)]

theorem squareTri5_points : squareTri5.simplexPoints = [![![0, 0], ![1, 0], ![0, 1]], ![![1, 1], ![1, 0], ![0, 1]], ![![1, 0], ![1, 1], ![2, 2]], ![![0, 1], ![1, 1], ![2, 2]]] := by
  unfold Triangulation.simplexPoints squareTri5
  simp only [List.map_cons, List.map_nil]
  congr 1
  · funext i; fin_cases i <;> rfl
  congr 1
  · funext i; fin_cases i <;> rfl
  congr 1
  · funext i; fin_cases i <;> rfl
  congr 1
  · funext i; fin_cases i <;> rfl

theorem squareTri5_injective : ∀ s ∈ squareTri5.simplexPoints, Function.Injective s := by
  intro s hs
  rw [squareTri5_points] at hs
  simp only [List.mem_cons, List.not_mem_nil, or_false] at hs
  rcases hs with rfl | rfl | rfl | rfl <;> apply injective_three <;> simp [pt_ext_iff]

theorem squareTri5_nondegenerate : TargetNonDegenerate squareTri5 ![2, 2] := by
  intro s hs _
  rw [squareTri5_points] at hs
  simp only [List.mem_cons, List.not_mem_nil, or_false] at hs
  rcases hs with rfl | rfl | rfl | rfl <;> simp [signedArea2, toPair] <;> norm_num

theorem squareTri5_two_facets : ∃ facets, findVisibleFacets squareTri5 ![2, 2] = .ok facets ∧ 2 ≤ facets.length := by
  obtain ⟨facets, h1, -, h3⟩ := C52_visible_facets squareTri5 ![2, 2] squareTri5_injective
  refine ⟨facets, h1, ?_⟩
  have hl := length_of_mapM h1
  rw [hl, squareTri5_points]
  have e1 : ∃ i, (![![1, 0], ![1, 1], ![2, 2]] : Fin 3 → Pt 0) i = ![2, 2] := ⟨2, rfl⟩
  have e2 : ∃ i, (![![0, 1], ![1, 1], ![2, 2]] : Fin 3 → Pt 0) i = ![2, 2] := ⟨2, rfl⟩
  have e3 : ¬ ∃ i, (![![0, 0], ![1, 0], ![0, 1]] : Fin 3 → Pt 0) i = ![2, 2] := by simp [Fin.exists_fin_succ, pt_ext_iff]
  have e4 : ¬ ∃ i, (![![1, 1], ![1, 0], ![0, 1]] : Fin 3 → Pt 0) i = ![2, 2] := by simp [Fin.exists_fin_succ, pt_ext_iff]
  rw [List.filter_cons_of_neg (by simpa using e3), List.filter_cons_of_neg (by simpa using e4), List.filter_cons_of_pos (by simpa using e1),
    List.filter_cons_of_pos (by simpa using e2)]
  simp

/-- **C93** (deviation) The shape is not always the documented one: already for one parameter per grid point on the unit square, seen from (2, 2). -/
theorem C93_not_always_documented : ¬ VisibleEdgesShape := by
  intro H
  obtain ⟨facets, hf, hL⟩ := squareTri5_two_facets
  have hp : FiniteParams ⟨[4, 1], fun _ => .fin 1⟩ squareTri.points.length 1 [] (fun _ => 1) := ⟨rfl, fun _ => rfl⟩
  obtain ⟨r, r1, -, r3⟩ := C93_wrong_shape (fun _ => 0) squareTri squareTri5 (by simp [squareTri]) squareTri_nondegenerate ![2, 2] facets hf hL 1 _ hp (by simp)
  exact r3 (H _ squareTri squareTri5 ![2, 2] 1 _ 1 [] _ (by simp [squareTri]) squareTri_nondegenerate rfl squareTri5_injective squareTri5_nondegenerate
    (by rw [squareTri5_points]; exact ⟨_, by simp; right; right; left; rfl, 2, rfl⟩) hp r r1)

/-- **C93** Without trailing axes of length one the shape is as documented. -/
theorem C93_documented_shape (argsort : List (FV ℝ × FV ℝ) → ℕ) (T TF : Triangulation) (hT : T.simplices ≠ []) (hnd : ∀ s ∈ T.simplices, NonDegenerate T s) (t : Pt 0)
    (hinj : ∀ s ∈ TF.simplexPoints, Function.Injective s) (hTF : TargetNonDegenerate TF t) (facets : List Facet) (hfac : findVisibleFacets TF t = .ok facets)
    (hL : 2 ≤ facets.length) (m : ℕ) (params : ND (FV ℝ)) {a : ℕ} {s : List ℕ} {p : List ℕ → ℝ} (hp : FiniteParams params T.points.length a s p) (h1 : 1 ∉ a :: s) :
    ∃ r, visibleEdgesExtrapolate argsort T TF m params t = .ok r ∧ r.shape = 1 :: a :: s := by
  obtain ⟨w, ind, e, r, -, -, -, -, h5, h6, -⟩ := C52_blend argsort T TF hT hnd t hinj hTF facets hfac hL m params hp h1
  exact ⟨r, h5, h6⟩

/-- **C93** With one visible facet every result has the documented shape, also with trailing axes of length one. -/
theorem C93_one_facet (argsort : List (FV ℝ × FV ℝ) → ℕ) (T TF : Triangulation) (t : Pt 0) (f : Facet) (hfac : findVisibleFacets TF t = .ok [f]) (m : ℕ) (params : ND (FV ℝ))
    (n a : ℕ) (s : List ℕ) (hs : params.shape = n :: a :: s) (r : ND (FV ℝ)) (hr : visibleEdgesExtrapolate argsort T TF m params t = .ok r) : r.shape = 1 :: a :: s := by
  rw [C52_single_facet argsort T TF t f hfac m params] at hr
  have ha : asParams params = params := by unfold asParams; rw [hs]
  unfold nearestSimplexExtrapolate at hr
  split at hr
  · cases hr
  · rw [ha] at hr
    unfold simplexExtrapolate2D at hr
    split at hr
    · cases hr
    · unfold combineRows at hr
      rw [hs] at hr
      simp only at hr
      split at hr
      · cases hr; rfl
      · cases hr

/-! ## The hypotheses are satisfiable -/

example : ∃ facets, findVisibleFacets squareTri5 ![2, 2] = .ok facets ∧ 2 ≤ facets.length ∧ TargetNonDegenerate squareTri5 ![2, 2] ∧
    (∀ s ∈ squareTri5.simplexPoints, Function.Injective s) ∧ FiniteParams ⟨[4, 3, 2], fun _ => .fin 1⟩ squareTri.points.length 3 [2] (fun _ => 1) ∧ 1 ∉ [3, 2] := by
  obtain ⟨facets, hf, hL⟩ := squareTri5_two_facets
  exact ⟨facets, hf, hL, squareTri5_nondegenerate, squareTri5_injective, ⟨rfl, fun _ => rfl⟩, by simp⟩

end Pyirf.Interpolation
