import Verif.Simulations.FovProps
import Verif.Np.AngleDist

/-!
# Simulated showers in longitude/latitude bins (C32, C83, C84, C85)
-/
set_option linter.unusedSectionVars false
set_option linter.unusedSimpArgs false

namespace Pyirf.Simulations
open Pyirf Pyirf.Np Pyirf.Utils

/-! ## Specification -/

/-- The direction with field-of-view longitude `lon` and latitude `lat` (radian) is in the viewcone. -/
def InViewcone (s : Info) (lon lat : ℝ) : Prop :=
  s.viewconeMin ≤ angularSeparation lon lat 0 0 ∧ angularSeparation lon lat 0 0 ≤ s.viewconeMax

/-- The fraction of the S × S subpixel centres of the rectangle `[lonLow, lonHigh] × [latLow, latHigh]` (radian) that are in the
viewcone. -/
noncomputable def sampledFraction (s : Info) (lonLow lonHigh latLow latHigh : ℝ) (S : ℕ) : ℝ :=
  open Classical in
  ((Finset.univ.filter (fun kl : Fin S × Fin S =>
    InViewcone s (lonLow + ((kl.1 : ℕ) + 1 / 2) / S * (lonHigh - lonLow))
      (latLow + ((kl.2 : ℕ) + 1 / 2) / S * (latHigh - latLow)))).card : ℝ) / (S : ℝ) ^ 2

/-- A grid of equal bins in degrees. -/
structure UniformDeg {p q : ℕ} (g : Grid p q) : Prop where
  unitLon : g.unitLon = deg
  unitLat : g.unitLat = deg
  lon : ∃ w, 0 < w ∧ ∀ i : Fin p, g.lonEdges i.succ - g.lonEdges i.castSucc = w
  lat : ∃ w, 0 < w ∧ ∀ j : Fin q, g.latEdges j.succ - g.latEdges j.castSucc = w

/-- The corners of the grid tell whether it meets the viewcone: a corner lies strictly outside the inner and one strictly inside
the outer circle; and if all corners are in the viewcone, it is a full cone and the grid is in the front half. -/
structure CornersTell (s : Info) {p q : ℕ} (g : Grid p q) : Prop where
  some_out_of_hole : ∃ j i, s.viewconeMin < g.cornerDist j i
  some_in_cone : ∃ j i, g.cornerDist j i < s.viewconeMax
  full : (∀ j i, InViewcone s (g.lon i) (g.lat j)) → s.viewconeMin = 0 ∧ (∀ i, |g.lon i| ≤ Real.pi / 2) ∧ (∀ j, |g.lat j| ≤ Real.pi / 2)

/-! ## Lemmas -/

open Classical

theorem deg_pos : 0 < deg := by unfold deg; have := Real.pi_pos; positivity

theorem cos_sep_origin (lon lat : ℝ) : Real.cos (angularSeparation lon lat 0 0) = Real.cos lat * Real.cos lon := by
  rw [(cos_angularSeparation _ _ _ _).1]; simp

theorem sampledFraction_one (s : Info) {a b c d : ℝ} {S : ℕ} (hS : 0 < S)
    (h : ∀ k l : Fin S, InViewcone s (a + ((k : ℕ) + 1 / 2) / S * (b - a)) (c + ((l : ℕ) + 1 / 2) / S * (d - c))) :
    sampledFraction s a b c d S = 1 := by
  unfold sampledFraction
  rw [Finset.filter_true_of_mem (fun kl _ => h kl.1 kl.2)]
  have : (S : ℝ) ≠ 0 := by exact_mod_cast hS.ne'
  simp [Finset.card_univ]
  field_simp

theorem sampledFraction_zero (s : Info) {a b c d : ℝ} {S : ℕ}
    (h : ∀ k l : Fin S, ¬ InViewcone s (a + ((k : ℕ) + 1 / 2) / S * (b - a)) (c + ((l : ℕ) + 1 / 2) / S * (d - c))) :
    sampledFraction s a b c d S = 0 := by
  unfold sampledFraction
  rw [Finset.filter_false_of_mem (fun kl _ => h kl.1 kl.2)]
  simp

theorem sampledFraction_mem (s : Info) (a b c d : ℝ) (S : ℕ) : 0 ≤ sampledFraction s a b c d S ∧ sampledFraction s a b c d S ≤ 1 := by
  unfold sampledFraction
  refine ⟨by positivity, ?_⟩
  apply div_le_one_of_le₀ _ (by positivity)
  have := Finset.card_filter_le (s := (Finset.univ : Finset (Fin S × Fin S))) (p := fun kl =>
    InViewcone s (a + ((kl.1 : ℕ) + 1 / 2) / S * (b - a)) (c + ((kl.2 : ℕ) + 1 / 2) / S * (d - c)))
  simp only [Finset.card_univ, Fintype.card_prod, Fintype.card_fin] at this
  rw [sq]; exact_mod_cast this

theorem subpixelCenter_eq {a w : ℝ} {S : ℕ} (hS : 0 < S) (k : ℕ) : subpixelCenter a w S k = a + ((k : ℝ) + 1 / 2) / S * w := by
  have : (S : ℝ) ≠ 0 := by exact_mod_cast hS.ne'
  unfold subpixelCenter
  push_cast
  field_simp
  ring

theorem coveredArea_eq (s : Info) {a b w v : ℝ} {S : ℕ} (hS : 0 < S) :
    coveredArea s a b w v S = .fin (sampledFraction s (a * deg) ((a + w) * deg) (b * deg) ((b + v) * deg) S) := by
  have hS' : ((S : ℝ) ^ 2) ≠ 0 := by have : (S : ℝ) ≠ 0 := by exact_mod_cast hS.ne'
                                     positivity
  unfold coveredArea sampledFraction
  simp only []
  rw [FV.fin_div_fin _ _ hS']
  congr 4
  ext kl
  simp only [Finset.mem_filter, Finset.mem_univ, true_and]
  unfold InViewcone
  simp only [subpixelCenter_eq hS]
  have e1 : (a + ((kl.1 : ℕ) + 1 / 2 : ℝ) / S * w) * deg = a * deg + ((kl.1 : ℕ) + 1 / 2 : ℝ) / S * ((a + w) * deg - a * deg) := by ring
  have e2 : (b + ((kl.2 : ℕ) + 1 / 2 : ℝ) / S * v) * deg = b * deg + ((kl.2 : ℕ) + 1 / 2 : ℝ) / S * ((b + v) * deg - b * deg) := by ring
  rw [e1, e2]
  exact and_comm

/-- distance to the field-of-view centre inside a rectangle, relative to the rectangle's centre -/
theorem dist_lt_of_near {x y cx cy w v : ℝ} (hx : |x - cx| < w / 2) (hy : |y - cy| < v / 2) :
    |angularSeparation x y 0 0 - angularSeparation cx cy 0 0| < Real.sqrt (w ^ 2 + v ^ 2) * 0.5 := by
  refine lt_of_le_of_lt (abs_sub_angularSeparation_le x y cx cy 0 0) ?_
  refine lt_of_le_of_lt (angularSeparation_le_sqrt _ _ _ _) ?_
  have e : Real.sqrt (w ^ 2 + v ^ 2) * 0.5 = Real.sqrt ((w / 2) ^ 2 + (v / 2) ^ 2) := by
    rw [show (w / 2) ^ 2 + (v / 2) ^ 2 = (w ^ 2 + v ^ 2) * (0.5) ^ 2 by ring, Real.sqrt_mul (by positivity), Real.sqrt_sq (by norm_num)]
  rw [e]
  apply Real.sqrt_lt_sqrt (by positivity)
  have h1 := sq_lt_sq' (abs_lt.mp hx).1 (abs_lt.mp hx).2
  have h2 := sq_lt_sq' (abs_lt.mp hy).1 (abs_lt.mp hy).2
  nlinarith

theorem dist_lt_of_corner {x y cx cy w v : ℝ} (hw : 0 < w) (hv : 0 < v) (hx : |x - cx| = w / 2) (hy : |y - cy| = v / 2) :
    |angularSeparation x y 0 0 - angularSeparation cx cy 0 0| < Real.sqrt (w ^ 2 + v ^ 2) * 0.5 := by
  refine lt_of_le_of_lt (abs_sub_angularSeparation_le x y cx cy 0 0) ?_
  have n1 : x ≠ cx := by rintro rfl; simp at hx; linarith
  have n2 : y ≠ cy := by rintro rfl; simp at hy; linarith
  refine lt_of_lt_of_le (angularSeparation_lt_sqrt _ _ _ _ n1 n2) ?_
  have e : Real.sqrt (w ^ 2 + v ^ 2) * 0.5 = Real.sqrt ((w / 2) ^ 2 + (v / 2) ^ 2) := by
    rw [show (w / 2) ^ 2 + (v / 2) ^ 2 = (w ^ 2 + v ^ 2) * (0.5) ^ 2 by ring, Real.sqrt_mul (by positivity), Real.sqrt_sq (by norm_num)]
  rw [e, ← hx, ← hy, sq_abs, sq_abs]
  apply Real.sqrt_le_sqrt
  linarith [show (cx - x) ^ 2 = (x - cx) ^ 2 by ring, show (cy - y) ^ 2 = (y - cy) ^ 2 by ring]

/-- bins that are not on the edge of the viewcone -/
theorem not_edge_cases {s : Info} {r R : ℝ} (h : ¬ edgeMask s r R) :
    (s.viewconeMin + R ≤ r ∧ r ≤ s.viewconeMax - R) ∨ s.viewconeMax + R ≤ r ∨ r ≤ s.viewconeMin - R := by
  unfold edgeMask at h
  rw [not_or, not_and_or, not_and_or, not_lt, not_lt, not_lt, not_lt] at h
  rcases h with ⟨h1 | h1, h2 | h2⟩
  · exact Or.inr (Or.inl h2)
  · exact Or.inl ⟨h1, h2⟩
  · exact Or.inr (Or.inr h1)
  · exact Or.inr (Or.inr h1)

/-- position of a distance relative to the viewcone -/
noncomputable def zone (s : Info) (d : ℝ) : ℕ := if d < s.viewconeMin then 0 else if d ≤ s.viewconeMax then 1 else 2

theorem zone_eq_of_bin {s : Info} (hlt : s.viewconeMin < s.viewconeMax) {r R : ℝ} (h : ¬ edgeMask s r R) {d d' : ℝ}
    (hd : |d - r| < R) (hd' : |d' - r| < R) : zone s d = zone s d' := by
  rw [abs_lt] at hd hd'
  unfold zone
  rcases not_edge_cases h with ⟨h1, h2⟩ | h1 | h1
  · rw [if_neg (by linarith), if_pos (by linarith), if_neg (by linarith), if_pos (by linarith)]
  · rw [if_neg (by linarith), if_neg (by linarith), if_neg (by linarith), if_neg (by linarith)]
  · rw [if_pos (by linarith), if_pos (by linarith)]

section uniform
variable {s : Info} {p q : ℕ} {g : Grid p q}

/-- the widths of a uniform grid in radian, and half of the diagonal -/
theorem uniform_widths (hu : UniformDeg g) (hp : 0 < p) (hq : 0 < q) :
    ∃ w v : ℝ, 0 < w ∧ 0 < v ∧ (∀ i : Fin p, g.lon i.succ - g.lon i.castSucc = w) ∧ (∀ j : Fin q, g.lat j.succ - g.lat j.castSucc = v) ∧
      g.binMaxRadius ⟨1, by omega⟩ ⟨1, by omega⟩ = Real.sqrt (w ^ 2 + v ^ 2) * 0.5 ∧
      (∀ i : Fin p, (g.lonEdges i.castSucc + (g.lonEdges ⟨1, by omega⟩ - g.lonEdges 0)) * deg = g.lon i.succ) ∧
      (∀ j : Fin q, (g.latEdges j.castSucc + (g.latEdges ⟨1, by omega⟩ - g.latEdges 0)) * deg = g.lat j.succ) := by
  obtain ⟨e1, e2, ⟨w, hw, hw'⟩, ⟨v, hv, hv'⟩⟩ := hu
  have a1 := hw' ⟨0, hp⟩
  have a2 := hv' ⟨0, hq⟩
  have b1 : g.lonEdges ⟨1, by omega⟩ - g.lonEdges 0 = w := a1
  have b2 : g.latEdges ⟨1, by omega⟩ - g.latEdges 0 = v := a2
  refine ⟨w * deg, v * deg, mul_pos hw deg_pos, mul_pos hv deg_pos, ?_, ?_, ?_, ?_, ?_⟩
  · intro i; unfold Grid.lon; rw [e1, ← sub_mul, hw']
  · intro i; unfold Grid.lat; rw [e2, ← sub_mul, hv']
  · unfold Grid.binMaxRadius Grid.lon Grid.lat
    rw [e1, e2, ← sub_mul, ← sub_mul, b1, b2]
  · intro i; unfold Grid.lon; rw [e1, b1, ← hw' i]; ring
  · intro j; unfold Grid.lat; rw [e2, b2, ← hv' j]; ring

/-- on a uniform grid that has corners in more than one zone there is a bin on the edge -/
theorem exists_edge (hlt : s.viewconeMin < s.viewconeMax) (hu : UniformDeg g) (hp : 0 < p) (hq : 0 < q)
    (h1 : ¬ allOutside s g) (h2 : ¬ allInside s g) :
    ¬ ∀ j i, ¬ edgeMask s (g.centerDist j i) (g.binMaxRadius ⟨1, by omega⟩ ⟨1, by omega⟩) := by
  intro hne
  obtain ⟨w, v, hw, hv, hw', hv', hR, -, -⟩ := uniform_widths hu hp hq
  rw [hR] at hne
  have hcorner : ∀ (j : Fin q) (i : Fin p) (jc : Fin (q + 1)) (ic : Fin (p + 1)), (jc = j.castSucc ∨ jc = j.succ) →
      (ic = i.castSucc ∨ ic = i.succ) →
      |g.cornerDist jc ic - g.centerDist j i| < Real.sqrt (w ^ 2 + v ^ 2) * 0.5 := by
    intro j i jc ic hj hi
    unfold Grid.cornerDist Grid.centerDist
    apply dist_lt_of_corner hw hv
    · rcases hi with rfl | rfl
      · rw [← hw' i, abs_of_nonpos (by linarith [hw' i])]; ring
      · rw [← hw' i, abs_of_nonneg (by linarith [hw' i])]; ring
    · rcases hj with rfl | rfl
      · rw [← hv' j, abs_of_nonpos (by linarith [hv' j])]; ring
      · rw [← hv' j, abs_of_nonneg (by linarith [hv' j])]; ring
  have hrow : ∀ jc : Fin (q + 1), ∃ j : Fin q, jc = j.castSucc ∨ jc = j.succ := by
    intro jc
    rcases Fin.eq_castSucc_or_eq_last jc with ⟨j, rfl⟩ | rfl
    · exact ⟨j, Or.inl rfl⟩
    · exact ⟨⟨q - 1, by omega⟩, Or.inr (by ext; simp; omega)⟩
  have hcol : ∀ ic : Fin (p + 1), ∃ i : Fin p, ic = i.castSucc ∨ ic = i.succ := by
    intro ic
    rcases Fin.eq_castSucc_or_eq_last ic with ⟨i, rfl⟩ | rfl
    · exact ⟨i, Or.inl rfl⟩
    · exact ⟨⟨p - 1, by omega⟩, Or.inr (by ext; simp; omega)⟩
  have hi : ∀ (jc : Fin (q + 1)) (ic : Fin (p + 1)), zone s (g.cornerDist jc ic) = zone s (g.cornerDist jc 0) := by
    intro jc ic
    obtain ⟨j, hj⟩ := hrow jc
    induction ic using Fin.induction with
    | zero => rfl
    | succ i ih =>
      rw [← ih]
      exact zone_eq_of_bin hlt (hne j i) (hcorner j i jc _ hj (Or.inr rfl)) (hcorner j i jc _ hj (Or.inl rfl))
  have hj : ∀ (jc : Fin (q + 1)), zone s (g.cornerDist jc 0) = zone s (g.cornerDist 0 0) := by
    intro jc
    obtain ⟨i, hi⟩ := hcol 0
    induction jc using Fin.induction with
    | zero => rfl
    | succ j ih =>
      rw [← ih]
      exact zone_eq_of_bin hlt (hne j i) (hcorner j i _ 0 (Or.inr rfl) hi) (hcorner j i _ 0 (Or.inl rfl) hi)
  have hall : ∀ jc ic, zone s (g.cornerDist jc ic) = zone s (g.cornerDist 0 0) := fun jc ic => (hi jc ic).trans (hj jc)
  have hz0 : ∀ d, zone s d = 0 → d ≤ s.viewconeMin := by
    intro d h; unfold zone at h; split_ifs at h with a; exact a.le
  have hz1 : ∀ d, zone s d = 1 → s.viewconeMin ≤ d ∧ d ≤ s.viewconeMax := by
    intro d h; unfold zone at h; split_ifs at h with a b <;> first | exact ⟨not_lt.mp a, b⟩ | omega
  have hz2 : ∀ d, zone s d = 2 → s.viewconeMax ≤ d := by
    intro d h; unfold zone at h; split_ifs at h with a b <;> first | exact (not_le.mp b).le | omega
  have hz : zone s (g.cornerDist 0 0) = 0 ∨ zone s (g.cornerDist 0 0) = 1 ∨ zone s (g.cornerDist 0 0) = 2 := by
    unfold zone; split_ifs <;> simp
  rcases hz with h | h | h
  · exact h1 (Or.inl (fun j i => hz0 _ ((hall j i).trans h)))
  · exact h2 ⟨fun j i => (hz1 _ ((hall j i).trans h)).2, fun j i => (hz1 _ ((hall j i).trans h)).1⟩
  · exact h1 (Or.inr (fun j i => hz2 _ ((hall j i).trans h)))

/-- the subpixel centres are inside the bin -/
theorem subpixel_near {a b : ℝ} (hab : a < b) {S : ℕ} (k : Fin S) :
    |a + ((k : ℕ) + 1 / 2) / S * (b - a) - 0.5 * (a + b)| < (b - a) / 2 := by
  have hS : 0 < (S : ℝ) := by exact_mod_cast k.pos
  have hk : ((k : ℕ) : ℝ) + 1 ≤ S := by exact_mod_cast k.isLt
  have h0 : (0:ℝ) ≤ ((k : ℕ) : ℝ) := by positivity
  have h1 : 0 < (((k : ℕ) : ℝ) + 1 / 2) / S := by positivity
  have h2 : (((k : ℕ) : ℝ) + 1 / 2) / S < 1 := by rw [div_lt_one hS]; linarith
  rw [abs_lt]
  constructor <;> nlinarith

theorem abs_le_max_edges {a b x : ℝ} (h1 : a ≤ x) (h2 : x ≤ b) : |x| ≤ |a| ∨ |x| ≤ |b| := by
  rcases le_total 0 x with h | h
  · right; rw [abs_of_nonneg h, abs_of_nonneg (h.trans h2)]; exact h2
  · left; rw [abs_of_nonpos h, abs_of_nonpos (h1.trans h)]; linarith

/-- the overlap of a uniform grid with corners both in and out of the viewcone is the fraction of subpixel centres -/
theorem overlap_eq_mixed (hd : Diffuse s) (hu : UniformDeg g) (hp : 0 < p) (hq : 0 < q) (ho : ¬ allOutside s g) (hi : ¬ allInside s g)
    {S : ℕ} (hS : 0 < S) :
    fovLonlatGridOverlap s g S = .ok (fun j i => .fin (sampledFraction s (g.lon i.castSucc) (g.lon i.succ) (g.lat j.castSucc)
      (g.lat j.succ) S)) := by
  have hlt := hd.lt
  obtain ⟨w, v, hw, hv, hw', hv', hR, hsl, hsb⟩ := uniform_widths hu hp hq
  have hnl : ∀ (i : Fin p) (k : Fin S), |g.lon i.castSucc + ((k : ℕ) + 1 / 2) / S * (g.lon i.succ - g.lon i.castSucc) -
      0.5 * (g.lon i.castSucc + g.lon i.succ)| < w / 2 := by
    intro i k
    have := subpixel_near (a := g.lon i.castSucc) (b := g.lon i.succ) (by linarith [hw' i]) k
    rwa [hw' i] at *
  have hnb : ∀ (j : Fin q) (l : Fin S), |g.lat j.castSucc + ((l : ℕ) + 1 / 2) / S * (g.lat j.succ - g.lat j.castSucc) -
      0.5 * (g.lat j.castSucc + g.lat j.succ)| < v / 2 := by
    intro j l
    have := subpixel_near (a := g.lat j.castSucc) (b := g.lat j.succ) (by linarith [hv' j]) l
    rwa [hv' j] at *
  unfold fovLonlatGridOverlap
  rw [if_neg ho]
  rw [if_neg hi, dif_neg (by omega)]
  simp only []
  rw [if_neg (exists_edge hlt hu hp hq ho hi)]
  congr 1
  funext j i
  split_ifs with h1 h2
  · rw [coveredArea_eq s hS, hsl, hsb]
    have e1 : g.lonEdges i.castSucc * deg = g.lon i.castSucc := by unfold Grid.lon; rw [hu.unitLon]
    have e2 : g.latEdges j.castSucc * deg = g.lat j.castSucc := by unfold Grid.lat; rw [hu.unitLat]
    rw [e1, e2]
  · congr 1
    symm
    apply sampledFraction_zero s
    intro k l
    have n := dist_lt_of_near (hnl i k) (hnb j l)
    rw [hR] at h1
    change |_ - g.centerDist j i| < _ at n
    rw [abs_lt] at n
    unfold InViewcone
    rcases not_edge_cases h1 with ⟨q1, q2⟩ | q1 | q1
    · rcases h2 with h2 | h2 <;> linarith
    · intro h; linarith [h.2]
    · intro h; linarith [h.1]
  · congr 1
    symm
    apply sampledFraction_one s hS
    intro k l
    have n := dist_lt_of_near (hnl i k) (hnb j l)
    rw [hR] at h1
    change |_ - g.centerDist j i| < _ at n
    rw [abs_lt] at n
    rw [not_or, not_lt, not_lt] at h2
    unfold InViewcone
    rcases not_edge_cases h1 with ⟨q1, q2⟩ | q1 | q1
    · constructor <;> linarith
    · linarith [h2.1]
    · linarith [h2.2]

/-- the overlap of a uniform grid is the fraction of subpixel centres -/
theorem overlap_eq (hd : Diffuse s) (hu : UniformDeg g) (hp : 0 < p) (hq : 0 < q) (hc : CornersTell s g) {S : ℕ} (hS : 0 < S) :
    fovLonlatGridOverlap s g S = .ok (fun j i => .fin (sampledFraction s (g.lon i.castSucc) (g.lon i.succ) (g.lat j.castSucc)
      (g.lat j.succ) S)) := by
  have hlt := hd.lt
  have ho : ¬ allOutside s g := by
    rintro (h | h)
    · obtain ⟨j, i, h'⟩ := hc.some_out_of_hole; linarith [h j i]
    · obtain ⟨j, i, h'⟩ := hc.some_in_cone; linarith [h j i]
  obtain ⟨w, v, hw, hv, hw', hv', hR, hsl, hsb⟩ := uniform_widths hu hp hq
  have hnl : ∀ (i : Fin p) (k : Fin S), |g.lon i.castSucc + ((k : ℕ) + 1 / 2) / S * (g.lon i.succ - g.lon i.castSucc) -
      0.5 * (g.lon i.castSucc + g.lon i.succ)| < w / 2 := by
    intro i k
    have := subpixel_near (a := g.lon i.castSucc) (b := g.lon i.succ) (by linarith [hw' i]) k
    rwa [hw' i] at *
  have hnb : ∀ (j : Fin q) (l : Fin S), |g.lat j.castSucc + ((l : ℕ) + 1 / 2) / S * (g.lat j.succ - g.lat j.castSucc) -
      0.5 * (g.lat j.castSucc + g.lat j.succ)| < v / 2 := by
    intro j l
    have := subpixel_near (a := g.lat j.castSucc) (b := g.lat j.succ) (by linarith [hv' j]) l
    rwa [hv' j] at *
  unfold fovLonlatGridOverlap
  rw [if_neg ho]
  by_cases hi : allInside s g
  · rw [if_pos hi]
    obtain ⟨h0, hlon, hlat⟩ := hc.full (fun j i => ⟨hi.2 j i, hi.1 j i⟩)
    congr 1
    funext j i
    congr 1
    symm
    apply sampledFraction_one s hS
    intro k l
    have n1 := hnl i k
    have n2 := hnb j l
    set x := g.lon i.castSucc + ((k : ℕ) + 1 / 2) / S * (g.lon i.succ - g.lon i.castSucc) with hx
    set y := g.lat j.castSucc + ((l : ℕ) + 1 / 2) / S * (g.lat j.succ - g.lat j.castSucc) with hy
    rw [abs_lt] at n1 n2
    have a1 : ∃ ic, |x| ≤ |g.lon ic| := by
      rcases abs_le_max_edges (a := g.lon i.castSucc) (b := g.lon i.succ) (x := x) (by linarith [hw' i]) (by linarith [hw' i]) with h | h
      · exact ⟨_, h⟩
      · exact ⟨_, h⟩
    have a2 : ∃ jc, |y| ≤ |g.lat jc| := by
      rcases abs_le_max_edges (a := g.lat j.castSucc) (b := g.lat j.succ) (x := y) (by linarith [hv' j]) (by linarith [hv' j]) with h | h
      · exact ⟨_, h⟩
      · exact ⟨_, h⟩
    obtain ⟨ic, hic⟩ := a1
    obtain ⟨jc, hjc⟩ := a2
    refine ⟨by rw [h0]; exact (angularSeparation_mem _ _ _ _).1, ?_⟩
    refine le_trans ?_ (hi.1 jc ic)
    unfold Grid.cornerDist
    rw [← Real.strictAntiOn_cos.le_iff_ge (angularSeparation_mem _ _ _ _) (angularSeparation_mem _ _ _ _), cos_sep_origin, cos_sep_origin]
    have c1 : Real.cos (g.lon ic) ≤ Real.cos x := by
      rw [← Real.cos_abs (g.lon ic), ← Real.cos_abs x]
      exact Real.cos_le_cos_of_nonneg_of_le_pi (abs_nonneg _) (by linarith [hlon ic, Real.pi_pos]) hic
    have c2 : Real.cos (g.lat jc) ≤ Real.cos y := by
      rw [← Real.cos_abs (g.lat jc), ← Real.cos_abs y]
      exact Real.cos_le_cos_of_nonneg_of_le_pi (abs_nonneg _) (by linarith [hlat jc, Real.pi_pos]) hjc
    have p1 : 0 ≤ Real.cos (g.lon ic) := Real.cos_nonneg_of_mem_Icc (abs_le.mp (hlon ic))
    have p2 : 0 ≤ Real.cos (g.lat jc) := Real.cos_nonneg_of_mem_Icc (abs_le.mp (hlat jc))
    exact mul_le_mul c2 c1 p1 (p2.trans c2)
  · have := overlap_eq_mixed hd hu hp hq ho hi hS
    unfold fovLonlatGridOverlap at this
    rwa [if_neg ho] at this

end uniform

theorem coneDiff_pos {s : Info} (hd : Diffuse s) : 0 < coneSolidAngle s.viewconeMax - coneSolidAngle s.viewconeMin := by
  have := cosDiff_pos hd
  unfold coneSolidAngle
  have hp := Real.pi_pos
  nlinarith

theorem lonlat_of_overlap {s : Info} (hn : 0 < s.nShowers) (hd : Diffuse s) {n p q : ℕ} {energyBins : Fin (n + 1) → FV ℝ} {g : Grid p q}
    {S : ℕ} {a : Fin n → ℝ} (ha : ∀ e, nShowersPerEnergy s energyBins e = .fin (a e)) {f : Fin q → Fin p → ℝ}
    (hf : fovLonlatGridOverlap s g S = .ok (fun j i => .fin (f j i))) :
    nShowers3dLonlat s energyBins g S = .ok (fun e j i => .fin (a e * f j i *
      rectangleSolidAngle (g.lon i.castSucc) (g.lon i.succ) (g.lat j.castSucc) (g.lat j.succ) /
      (coneSolidAngle s.viewconeMax - coneSolidAngle s.viewconeMin))) := by
  have hc := (coneDiff_pos hd).ne'
  unfold nShowers3dLonlat
  rw [hf]
  simp only [ha, FV.fin_div_fin _ _ hc, FV.fin_mul_fin, FV.fin_div_fin _ _ hn.ne']
  congr 1
  funext e j i
  congr 1
  field_simp

/-! ## C32 -/

/-- **C32** (the numbers) On a grid of equal bins in degrees whose corners tell where the viewcone is, the number in an energy bin, a
latitude bin and a longitude bin is the number in the energy bin, times the fraction of the viewcone's solid angle the rectangle would
take up, times the fraction of the rectangle's subpixel centres inside the viewcone. No error is raised. -/
theorem C32_numbers (s : Info) (hv : Valid s) (hd : Diffuse s) {n p q : ℕ} (energyBins : Fin (n + 1) → FV ℝ)
    (hE : ∀ i : Fin n, IsBin (energyBins i.castSucc) (energyBins i.succ))
    (hc : ∀ i : Fin n, ¬ StrictlyContainsRange s (energyBins i.castSucc) (energyBins i.succ))
    (g : Grid p q) (hp : 0 < p) (hq : 0 < q) (hu : UniformDeg g) (ht : CornersTell s g) (S : ℕ) (hS : 0 < S) :
    nShowers3dLonlat s energyBins g S = .ok (fun e j i => .fin (
      expectedShowers s (energyBins e.castSucc) (energyBins e.succ) *
      sampledFraction s (g.lon i.castSucc) (g.lon i.succ) (g.lat j.castSucc) (g.lat j.succ) S *
      ((g.lon i.succ - g.lon i.castSucc) * (Real.sin (g.lat j.succ) - Real.sin (g.lat j.castSucc))) /
      solidAngleOf (Set.Icc s.viewconeMin s.viewconeMax))) := by
  rw [lonlat_of_overlap hv.showers hd (fun e => C26_expected_number s hv energyBins e (hE e) (hc e)) (overlap_eq hd hu hp hq ht hS)]
  have e : solidAngleOf (Set.Icc s.viewconeMin s.viewconeMax) = coneSolidAngle s.viewconeMax - coneSolidAngle s.viewconeMin := by
    unfold solidAngleOf coneSolidAngle
    rw [integral_sandwich hd.lt.le Set.Ioo_subset_Icc_self le_rfl, integral_sin]; ring
  rw [e]
  rfl

/-- **C32** (meaning of the fraction) The sampled fraction is between 0 and 1; it is 1 for a rectangle inside the viewcone and 0
for a rectangle that does not meet it. -/
theorem C32_fraction (s : Info) (a b c d : ℝ) (hab : a < b) (hcd : c < d) (S : ℕ) (hS : 0 < S) :
    0 ≤ sampledFraction s a b c d S ∧ sampledFraction s a b c d S ≤ 1 ∧
    ((∀ x y, a ≤ x → x ≤ b → c ≤ y → y ≤ d → InViewcone s x y) → sampledFraction s a b c d S = 1) ∧
    ((∀ x y, a ≤ x → x ≤ b → c ≤ y → y ≤ d → ¬ InViewcone s x y) → sampledFraction s a b c d S = 0) := by
  have near : ∀ {a b : ℝ}, a < b → ∀ k : Fin S, a ≤ a + ((k : ℕ) + 1 / 2) / S * (b - a) ∧ a + ((k : ℕ) + 1 / 2) / S * (b - a) ≤ b := by
    intro a b h k
    have := abs_lt.mp (subpixel_near h k)
    constructor <;> linarith
  refine ⟨(sampledFraction_mem _ _ _ _ _ _).1, (sampledFraction_mem _ _ _ _ _ _).2, ?_, ?_⟩
  · intro h
    exact sampledFraction_one s hS (fun k l => h _ _ (near hab k).1 (near hab k).2 (near hcd l).1 (near hcd l).2)
  · intro h
    exact sampledFraction_zero s (fun k l => h _ _ (near hab k).1 (near hab k).2 (near hcd l).1 (near hcd l).2)

/-- **C32** (range, any grid) Whatever the edges and units, if the overlap is computed at all (subpixels > 0) every fraction is in [0, 1]. -/
theorem C32_range (s : Info) {p q : ℕ} (g : Grid p q) (S : ℕ) (hS : 0 < S) (f : Fin q → Fin p → FV ℝ)
    (hf : fovLonlatGridOverlap s g S = .ok f) : ∀ j i, ∃ x, f j i = .fin x ∧ 0 ≤ x ∧ x ≤ 1 := by
  intro j i
  unfold fovLonlatGridOverlap at hf
  split_ifs at hf with h1 h2 h3
  · injection hf with hf; subst hf; exact ⟨0, rfl, le_rfl, zero_le_one⟩
  · injection hf with hf; subst hf; exact ⟨1, rfl, zero_le_one, le_rfl⟩
  · simp only [] at hf
    split_ifs at hf with h4
    injection hf with hf; subst hf
    beta_reduce
    split_ifs
    · exact ⟨_, coveredArea_eq s hS, (sampledFraction_mem _ _ _ _ _ _).1, (sampledFraction_mem _ _ _ _ _ _).2⟩
    · exact ⟨0, rfl, le_rfl, zero_le_one⟩
    · exact ⟨1, rfl, zero_le_one, le_rfl⟩

/-- **C32** (sign, any grid) If the call returns, the numbers are finite and not negative, and none exceeds the number the full rectangle
would have. -/
theorem C32_nonneg (s : Info) (hv : Valid s) (hd : Diffuse s) {n p q : ℕ} (energyBins : Fin (n + 1) → FV ℝ)
    (hE : ∀ i : Fin n, IsBin (energyBins i.castSucc) (energyBins i.succ))
    (hc : ∀ i : Fin n, ¬ StrictlyContainsRange s (energyBins i.castSucc) (energyBins i.succ))
    (g : Grid p q) (hlon : Monotone g.lon) (hlat : Monotone g.lat) (hb : ∀ j, |g.lat j| ≤ Real.pi / 2) (S : ℕ) (hS : 0 < S)
    (r : Fin n → Fin q → Fin p → FV ℝ) (hr : nShowers3dLonlat s energyBins g S = .ok r) :
    ∀ e j i, ∃ x, r e j i = .fin x ∧ 0 ≤ x := by
  intro e j i
  cases hf : fovLonlatGridOverlap s g S with
  | error e => unfold nShowers3dLonlat at hr; rw [hf] at hr; cases hr
  | ok f =>
    have h := C32_range s g S hS f hf
    choose f' hf' h0 h1 using h
    have hf2 : fovLonlatGridOverlap s g S = .ok (fun j i => .fin (f' j i)) := by
      rw [hf]; congr 1; funext j i; exact hf' j i
    rw [lonlat_of_overlap hv.showers hd (fun e => C26_expected_number s hv energyBins e (hE e) (hc e)) hf2] at hr
    injection hr with hr
    subst hr
    refine ⟨_, rfl, ?_⟩
    have a1 : 0 ≤ expectedShowers s (energyBins e.castSucc) (energyBins e.succ) := by
      obtain ⟨x, hx, hx0, -⟩ := C27_nonneg s hv energyBins e (hE e) (hc e)
      rw [C26_expected_number s hv energyBins e (hE e) (hc e)] at hx
      rw [FV.fin.inj hx]; exact hx0
    have a2 : 0 ≤ rectangleSolidAngle (g.lon i.castSucc) (g.lon i.succ) (g.lat j.castSucc) (g.lat j.succ) := by
      unfold rectangleSolidAngle
      apply mul_nonneg
      · linarith [hlon (Fin.castSucc_lt_succ (i := i)).le]
      · have := Real.sin_le_sin_of_le_of_le_pi_div_two (abs_le.mp (hb j.castSucc)).1 (abs_le.mp (hb j.succ)).2
          (hlat (Fin.castSucc_lt_succ (i := j)).le)
        linarith
    exact div_nonneg (mul_nonneg (mul_nonneg a1 (h0 j i)) a2) (coneDiff_pos hd).le

/-! ## Concrete grids -/

theorem sep_equator {x : ℝ} (h0 : 0 ≤ x) (h1 : x ≤ Real.pi) : angularSeparation x 0 0 0 = x := by
  apply Real.injOn_cos (angularSeparation_mem _ _ _ _) ⟨h0, h1⟩
  rw [cos_sep_origin]; simp

/-- a simulation with a viewcone of three degrees -/
noncomputable def exCone : Info := ⟨100, 1, 10, 1000, -2, 0, 3 * deg⟩

theorem deg_le : 10 * deg ≤ Real.pi / 2 := by unfold deg; linarith [Real.pi_pos]

theorem exCone_valid : Valid exCone := ⟨by norm_num [exCone], by norm_num [exCone], by norm_num [exCone], by norm_num [exCone]⟩
theorem exCone_diffuse : Diffuse exCone :=
  ⟨le_rfl, by show (0:ℝ) < 3 * deg; linarith [deg_pos], by show 3 * deg ≤ Real.pi; linarith [deg_le, deg_pos, Real.pi_pos]⟩

theorem sep_le_of {x y r : ℝ} (hr : 0 ≤ r) (h : x ^ 2 + y ^ 2 ≤ r ^ 2) : angularSeparation x y 0 0 ≤ r := by
  refine (angularSeparation_le_sqrt _ _ _ _).trans ?_
  rw [Real.sqrt_le_left hr]; nlinarith

theorem le_sep_lon {x y : ℝ} (h0 : 0 ≤ x) (h1 : x ≤ Real.pi / 2) : x ≤ angularSeparation x y 0 0 := by
  have hp := Real.pi_pos
  rw [← Real.strictAntiOn_cos.le_iff_ge (angularSeparation_mem _ _ _ _) ⟨h0, by linarith⟩, cos_sep_origin]
  have : 0 ≤ Real.cos x := Real.cos_nonneg_of_mem_Icc ⟨by linarith, h1⟩
  nlinarith [Real.cos_le_one y]

/-- longitudes -4, 0, 4 and latitudes -1, 1 degree -/
noncomputable def exGrid : Grid 2 1 := ⟨deg, deg, ![-4, 0, 4], ![-1, 1]⟩

/-- the hypotheses of C32 are satisfiable: the bins of exGrid are cut by the viewcone -/
theorem exGrid_ok : UniformDeg exGrid ∧ CornersTell exCone exGrid ∧ Valid exCone ∧ Diffuse exCone := by
  have hd := deg_pos
  refine ⟨⟨rfl, rfl, ⟨4, by norm_num, ?_⟩, ⟨2, by norm_num, ?_⟩⟩, ⟨⟨0, 2, ?_⟩, ⟨0, 1, ?_⟩, ?_⟩, exCone_valid, exCone_diffuse⟩
  · intro i; fin_cases i
    · show (0:ℝ) - (-4) = 4
      norm_num
    · show (4:ℝ) - 0 = 4
      norm_num
  · intro j; fin_cases j
    show (1:ℝ) - (-1) = 2
    norm_num
  · show (0:ℝ) < angularSeparation (4 * deg) (-1 * deg) 0 0
    have := le_sep_lon (x := 4 * deg) (y := -1 * deg) (by positivity) (by linarith [deg_le])
    linarith
  · show angularSeparation (0 * deg) (-1 * deg) 0 0 < 3 * deg
    have := sep_le_of (x := 0 * deg) (y := -1 * deg) (r := deg) hd.le (by nlinarith)
    linarith
  · intro h
    have := (h 0 2).2
    change angularSeparation (4 * deg) (-1 * deg) 0 0 ≤ 3 * deg at this
    have := le_sep_lon (x := 4 * deg) (y := -1 * deg) (by positivity) (by linarith [deg_le])
    linarith

/-! ## C83: order of the axes -/

/-- **C83** (deviation) The documented order (energy, longitude, latitude) of the result's axes is not the actual one: there is a 2 × 2 grid
inside the viewcone where entry [0, 0, 1] is not the number of showers in longitude bin 0 and latitude bin 1. -/
theorem C83_not_documented_order :
    ¬ ∀ (s : Info) (_ : Valid s) (_ : Diffuse s) (a b : FV ℝ) (g : Grid 2 2) (r : Fin 1 → Fin 2 → Fin 2 → FV ℝ), IsBin a b →
      ¬ StrictlyContainsRange s a b → (∀ j i, InViewcone s (g.lon i) (g.lat j)) → g.unitLon = deg → g.unitLat = deg →
      nShowers3dLonlat s ![a, b] g = .ok r →
      ∀ lonBin latBin : Fin 2, r 0 lonBin latBin = .fin (expectedShowers s a b *
        ((g.lon lonBin.succ - g.lon lonBin.castSucc) * (Real.sin (g.lat latBin.succ) - Real.sin (g.lat latBin.castSucc))) /
        (coneSolidAngle s.viewconeMax - coneSolidAngle s.viewconeMin)) := by
  intro h
  have hd := deg_pos
  let g : Grid 2 2 := ⟨deg, deg, ![0, 1, 2 + 1 / 2], ![-1, 0, 1]⟩
  have hE : IsBin (.fin exCone.energyMin) (.fin exCone.energyMax) := ⟨by simp [exCone], by simp [exCone]⟩
  have hc : ¬ StrictlyContainsRange exCone (.fin exCone.energyMin) (.fin exCone.energyMax) := by
    simp [StrictlyContainsRange, FV.lt_irrefl']
  have hin : ∀ j i, InViewcone exCone (g.lon i) (g.lat j) := by
    intro j i
    refine ⟨(angularSeparation_mem _ _ _ _).1, ?_⟩
    show _ ≤ 3 * deg
    have h1 : |g.lon i| ≤ 2.5 * deg := by
      fin_cases i
      · show |0 * deg| ≤ _
        simp; positivity
      · show |1 * deg| ≤ _
        rw [one_mul, abs_of_pos hd]; linarith
      · show |(2 + 1 / 2) * deg| ≤ _
        rw [abs_of_pos (by positivity)]; linarith
    have h2 : |g.lat j| ≤ deg := by
      fin_cases j
      · show |-1 * deg| ≤ _
        rw [neg_one_mul, abs_neg, abs_of_pos hd]
      · show |0 * deg| ≤ _
        simp; positivity
      · show |1 * deg| ≤ _
        rw [one_mul, abs_of_pos hd]
    apply sep_le_of (by positivity)
    have q1 := sq_le_sq' (by linarith [abs_le.mp h1 |>.1]) (abs_le.mp h1).2
    have q2 := sq_le_sq' (by linarith [abs_le.mp h2 |>.1]) (abs_le.mp h2).2
    nlinarith
  have hov : fovLonlatGridOverlap exCone g 20 = .ok (fun _ _ => .fin 1) := by
    unfold fovLonlatGridOverlap
    rw [if_neg, if_pos]
    · exact ⟨fun j i => (hin j i).2, fun j i => (hin j i).1⟩
    · have e : g.cornerDist 1 1 = deg := by
        show angularSeparation (1 * deg) (0 * deg) 0 0 = deg
        rw [one_mul, zero_mul]; exact sep_equator hd.le (by linarith [deg_le, Real.pi_pos])
      rintro (h | h)
      · have := h 1 1; rw [e] at this; change deg ≤ 0 at this; linarith
      · have := h 1 1; rw [e] at this; change deg ≥ 3 * deg at this; linarith
  have hnum := lonlat_of_overlap (energyBins := ![FV.fin exCone.energyMin, FV.fin exCone.energyMax]) exCone_valid.showers exCone_diffuse
    (fun e => C26_expected_number exCone exCone_valid _ e (by fin_cases e; exact hE) (by fin_cases e; exact hc)) hov
  have := h exCone exCone_valid exCone_diffuse _ _ g _ hE hc hin rfl rfl hnum 0 1
  have hpos : 0 < expectedShowers exCone (.fin exCone.energyMin) (.fin exCone.energyMax) := by
    rw [expectedShowers_eq exCone_valid hE]
    have e1 : clip exCone (.fin exCone.energyMax) = exCone.energyMax := by simp [clip, exCone_valid.lt.le]
    have e0 : clip exCone (.fin exCone.energyMin) = exCone.energyMin := by simp [clip, exCone_valid.lt.le]
    rw [e1, e0, cdf_full exCone_valid, mul_one]; exact exCone_valid.showers
  have hcd := coneDiff_pos exCone_diffuse
  have := FV.fin.inj this
  rw [div_left_inj' hcd.ne'] at this
  change expectedShowers exCone (.fin exCone.energyMin) (.fin exCone.energyMax) * 1 *
    (((2 + 1 / 2) * deg - 1 * deg) * (Real.sin (0 * deg) - Real.sin (-1 * deg))) =
    expectedShowers exCone (.fin exCone.energyMin) (.fin exCone.energyMax) *
    ((1 * deg - 0 * deg) * (Real.sin (1 * deg) - Real.sin (0 * deg))) at this
  rw [mul_one, mul_right_inj' hpos.ne'] at this
  simp only [zero_mul, neg_mul, one_mul, Real.sin_neg, Real.sin_zero, sub_neg_eq_add, zero_add, sub_zero] at this
  have hsin : 0 < Real.sin deg := Real.sin_pos_of_pos_of_lt_pi hd (by linarith [deg_le, Real.pi_pos])
  nlinarith [mul_pos hd hsin]

/-- **C83** Whenever the call returns (any grid), entry `[energy bin][a][b]` belongs to latitude bin `a` and longitude bin `b`: it is the number in the
energy bin, times the overlap of that bin with the viewcone, times the share of the solid angle of that bin. -/
theorem C83_axes (s : Info) (hv : Valid s) (hd : Diffuse s) {n p q : ℕ} (energyBins : Fin (n + 1) → FV ℝ)
    (hE : ∀ i : Fin n, IsBin (energyBins i.castSucc) (energyBins i.succ))
    (hc : ∀ i : Fin n, ¬ StrictlyContainsRange s (energyBins i.castSucc) (energyBins i.succ))
    (g : Grid p q) (S : ℕ) (hS : 0 < S) (r : Fin n → Fin q → Fin p → FV ℝ) (hr : nShowers3dLonlat s energyBins g S = .ok r) :
    ∃ overlap : Fin q → Fin p → ℝ, fovLonlatGridOverlap s g S = .ok (fun latBin lonBin => .fin (overlap latBin lonBin)) ∧
      (∀ latBin lonBin, 0 ≤ overlap latBin lonBin ∧ overlap latBin lonBin ≤ 1) ∧
      ∀ e latBin lonBin, r e latBin lonBin = .fin (expectedShowers s (energyBins e.castSucc) (energyBins e.succ) * overlap latBin lonBin *
        ((g.lon lonBin.succ - g.lon lonBin.castSucc) * (Real.sin (g.lat latBin.succ) - Real.sin (g.lat latBin.castSucc))) /
        (coneSolidAngle s.viewconeMax - coneSolidAngle s.viewconeMin)) := by
  cases hf : fovLonlatGridOverlap s g S with
  | error e => unfold nShowers3dLonlat at hr; rw [hf] at hr; cases hr
  | ok f =>
    have h := C32_range s g S hS f hf
    choose f' hf' h0 h1 using h
    have e : f = (fun j i => .fin (f' j i)) := by funext j i; exact hf' j i
    have hf2 : fovLonlatGridOverlap s g S = .ok (fun j i => .fin (f' j i)) := by rw [hf, e]
    refine ⟨f', by rw [e], fun j i => ⟨h0 j i, h1 j i⟩, ?_⟩
    rw [lonlat_of_overlap hv.showers hd (fun e => C26_expected_number s hv energyBins e (hE e) (hc e)) hf2] at hr
    injection hr with hr
    subst hr
    intro e j i
    rfl

/-- **C83** If the corners of the grid are in the viewcone (not all of them on its rim), the numbers of longitude and latitude bins are equal and
some energy bin has showers: reading the result in the documented order (energy, longitude, latitude) gives the right numbers exactly if
all products (width of longitude bin a) x (width of latitude bin b in sine) are symmetric in a and b. -/
theorem C83_documented_order_iff (s : Info) (hv : Valid s) (hd : Diffuse s) {n p : ℕ} (energyBins : Fin (n + 1) → FV ℝ)
    (hE : ∀ i : Fin n, IsBin (energyBins i.castSucc) (energyBins i.succ))
    (hc : ∀ i : Fin n, ¬ StrictlyContainsRange s (energyBins i.castSucc) (energyBins i.succ))
    (g : Grid p p) (S : ℕ) (hin : ∀ j i, InViewcone s (g.lon i) (g.lat j))
    (h1 : ∃ j i, s.viewconeMin < g.cornerDist j i) (h2 : ∃ j i, g.cornerDist j i < s.viewconeMax)
    (hpos : ∃ e : Fin n, expectedShowers s (energyBins e.castSucc) (energyBins e.succ) ≠ 0) :
    ∃ r, nShowers3dLonlat s energyBins g S = .ok r ∧
      ((∀ e lonBin latBin, r e lonBin latBin = .fin (expectedShowers s (energyBins e.castSucc) (energyBins e.succ) *
        ((g.lon lonBin.succ - g.lon lonBin.castSucc) * (Real.sin (g.lat latBin.succ) - Real.sin (g.lat latBin.castSucc))) /
        (coneSolidAngle s.viewconeMax - coneSolidAngle s.viewconeMin))) ↔
      ∀ a b : Fin p, (g.lon a.succ - g.lon a.castSucc) * (Real.sin (g.lat b.succ) - Real.sin (g.lat b.castSucc)) =
        (g.lon b.succ - g.lon b.castSucc) * (Real.sin (g.lat a.succ) - Real.sin (g.lat a.castSucc))) := by
  have hov : fovLonlatGridOverlap s g S = .ok (fun _ _ => .fin 1) := by
    unfold fovLonlatGridOverlap
    rw [if_neg, if_pos]
    · exact ⟨fun j i => (hin j i).2, fun j i => (hin j i).1⟩
    · rintro (h | h)
      · obtain ⟨j, i, h1⟩ := h1; linarith [h j i]
      · obtain ⟨j, i, h2⟩ := h2; linarith [h j i]
  refine ⟨_, lonlat_of_overlap hv.showers hd (fun e => C26_expected_number s hv energyBins e (hE e) (hc e)) hov, ?_⟩
  have hcd := (coneDiff_pos hd).ne'
  obtain ⟨e0, he0⟩ := hpos
  simp only [mul_one, rectangleSolidAngle]
  constructor
  · intro h a b
    have := FV.fin.inj (h e0 a b)
    rw [div_left_inj' hcd] at this
    exact (mul_left_cancel₀ he0 this).symm
  · intro h e a b
    rw [h a b]

/-- **C83** (grid in the viewcone) With the axes taken as (energy, latitude, longitude) the entry is the number of showers of the bin, if all corners of the
grid are in the viewcone. -/
theorem C83_axes_inside (s : Info) (hv : Valid s) (hd : Diffuse s) {n p q : ℕ} (energyBins : Fin (n + 1) → FV ℝ)
    (hE : ∀ i : Fin n, IsBin (energyBins i.castSucc) (energyBins i.succ))
    (hc : ∀ i : Fin n, ¬ StrictlyContainsRange s (energyBins i.castSucc) (energyBins i.succ))
    (g : Grid p q) (S : ℕ) (hin : ∀ j i, InViewcone s (g.lon i) (g.lat j))
    (h1 : ∃ j i, s.viewconeMin < g.cornerDist j i) (h2 : ∃ j i, g.cornerDist j i < s.viewconeMax) :
    nShowers3dLonlat s energyBins g S = .ok (fun e latBin lonBin => .fin (expectedShowers s (energyBins e.castSucc) (energyBins e.succ) *
        ((g.lon lonBin.succ - g.lon lonBin.castSucc) * (Real.sin (g.lat latBin.succ) - Real.sin (g.lat latBin.castSucc))) /
        (coneSolidAngle s.viewconeMax - coneSolidAngle s.viewconeMin))) := by
  have hov : fovLonlatGridOverlap s g S = .ok (fun _ _ => .fin 1) := by
    unfold fovLonlatGridOverlap
    rw [if_neg, if_pos]
    · exact ⟨fun j i => (hin j i).2, fun j i => (hin j i).1⟩
    · rintro (h | h)
      · obtain ⟨j, i, h1⟩ := h1; linarith [h j i]
      · obtain ⟨j, i, h2⟩ := h2; linarith [h j i]
  rw [lonlat_of_overlap hv.showers hd (fun e => C26_expected_number s hv energyBins e (hE e) (hc e)) hov]
  simp only [mul_one]
  rfl

/-! ## C84: all corners outside -/

/-- **C84** (deviation) "The overlap is the fraction of the bin inside the viewcone" fails on the grid of one bin from -4 to 4 degrees around a
viewcone of 3 degrees: the call returns 0 although the centre and 1/16 and more of the bin are in the viewcone. -/
theorem C84_not_sampled_fraction :
    ¬ ∀ (s : Info) (_ : Diffuse s) (g : Grid 1 1), UniformDeg g → ∀ S, 0 < S →
      fovLonlatGridOverlap s g S = .ok (fun j i => .fin (sampledFraction s (g.lon i.castSucc) (g.lon i.succ) (g.lat j.castSucc)
        (g.lat j.succ) S)) := by
  intro h
  have hd := deg_pos
  let g : Grid 1 1 := ⟨deg, deg, ![-4, 4], ![-4, 4]⟩
  have hu : UniformDeg g := ⟨rfl, rfl, ⟨8, by norm_num, fun i => by fin_cases i; show (4:ℝ) - (-4) = 8; norm_num⟩,
    ⟨8, by norm_num, fun i => by fin_cases i; show (4:ℝ) - (-4) = 8; norm_num⟩⟩
  have := h exCone exCone_diffuse g hu 1 one_pos
  have hout : allOutside exCone g := by
    right
    intro j i
    show angularSeparation (g.lon i) (g.lat j) 0 0 ≥ 3 * deg
    have hcos : Real.cos (g.lon i) = Real.cos (4 * deg) := by
      fin_cases i
      · show Real.cos (-4 * deg) = _
        rw [neg_mul, Real.cos_neg]
      · rfl
    have hp := Real.pi_pos
    have hle := deg_le
    rw [ge_iff_le, ← Real.strictAntiOn_cos.le_iff_ge (angularSeparation_mem _ _ _ _) ⟨by positivity, by linarith⟩, cos_sep_origin, hcos]
    have h4 : 0 ≤ Real.cos (4 * deg) := Real.cos_nonneg_of_mem_Icc ⟨by linarith, by linarith⟩
    have h34 := Real.cos_le_cos_of_nonneg_of_le_pi (x := 3 * deg) (y := 4 * deg) (by positivity) (by linarith) (by linarith)
    nlinarith [Real.cos_le_one (g.lat j)]
  unfold fovLonlatGridOverlap at this
  rw [if_pos hout] at this
  injection this with this
  have := FV.fin.inj (congrFun (congrFun this 0) 0)
  have h1 : sampledFraction exCone (g.lon (Fin.castSucc 0)) (g.lon (Fin.succ 0)) (g.lat (Fin.castSucc 0)) (g.lat (Fin.succ 0)) 1 = 1 := by
    apply sampledFraction_one _ one_pos
    intro k l
    have hk : ((k : ℕ) : ℝ) = 0 := by have : (k : ℕ) = 0 := by omega
                                      exact_mod_cast this
    have hl : ((l : ℕ) : ℝ) = 0 := by have : (l : ℕ) = 0 := by omega
                                      exact_mod_cast this
    have e1 : g.lon (Fin.castSucc 0) = -4 * deg := rfl
    have e2 : g.lon (Fin.succ 0) = 4 * deg := rfl
    have e3 : g.lat (Fin.castSucc 0) = -4 * deg := rfl
    have e4 : g.lat (Fin.succ 0) = 4 * deg := rfl
    rw [hk, hl, e1, e2, e3, e4]
    have e : -4 * deg + (0 + 1 / 2) / ((1 : ℕ) : ℝ) * (4 * deg - -4 * deg) = 0 := by push_cast; ring
    rw [e]
    refine ⟨(angularSeparation_mem _ _ _ _).1, ?_⟩
    rw [sep_equator le_rfl Real.pi_pos.le]
    show (0:ℝ) ≤ 3 * deg
    positivity
  rw [h1] at this
  norm_num at this

/-- **C84** The overlap on a uniform grid in degrees, in full: 0 in every bin if all corners are at or inside the inner circle or all at or outside the
outer circle; otherwise 1 in every bin if all corners are in the viewcone; otherwise the sampled fractions. -/
theorem C84_overlap (s : Info) (hd : Diffuse s) {p q : ℕ} (hp : 0 < p) (hq : 0 < q) (g : Grid p q) (hu : UniformDeg g) (S : ℕ) (hS : 0 < S) :
    let outside := (∀ j i, angularSeparation (g.lon i) (g.lat j) 0 0 ≤ s.viewconeMin) ∨
      (∀ j i, s.viewconeMax ≤ angularSeparation (g.lon i) (g.lat j) 0 0)
    let inside := ∀ j i, InViewcone s (g.lon i) (g.lat j)
    (outside → fovLonlatGridOverlap s g S = .ok (fun _ _ => .fin 0)) ∧
    (¬ outside → inside → fovLonlatGridOverlap s g S = .ok (fun _ _ => .fin 1)) ∧
    (¬ outside → ¬ inside → fovLonlatGridOverlap s g S = .ok (fun j i => .fin (sampledFraction s (g.lon i.castSucc) (g.lon i.succ)
      (g.lat j.castSucc) (g.lat j.succ) S))) := by
  intro outside inside
  have hins : inside ↔ allInside s g := ⟨fun h => ⟨fun j i => (h j i).2, fun j i => (h j i).1⟩, fun h j i => ⟨h.2 j i, h.1 j i⟩⟩
  refine ⟨?_, ?_, ?_⟩
  · intro h; have h2 : allOutside s g := h
    unfold fovLonlatGridOverlap; rw [if_pos h2]
  · intro h h'; have h2 : ¬ allOutside s g := h
    unfold fovLonlatGridOverlap; rw [if_neg h2, if_pos (hins.mp h')]
  · intro h h'; exact overlap_eq_mixed hd hu hp hq h (fun h'' => h' (hins.mpr h'')) hS

theorem sampledFraction_eq_zero_iff (s : Info) {a b c d : ℝ} {S : ℕ} (hS : 0 < S) : sampledFraction s a b c d S = 0 ↔
    ∀ k l : Fin S, ¬ InViewcone s (a + ((k : ℕ) + 1 / 2) / S * (b - a)) (c + ((l : ℕ) + 1 / 2) / S * (d - c)) := by
  refine ⟨?_, sampledFraction_zero s⟩
  intro h k l hin
  have hS' : (S : ℝ) ≠ 0 := by exact_mod_cast hS.ne'
  unfold sampledFraction at h
  rw [div_eq_zero_iff] at h
  rcases h with h | h
  · rw [Nat.cast_eq_zero, Finset.card_eq_zero, Finset.filter_eq_empty_iff] at h
    exact h (Finset.mem_univ (k, l)) hin
  · exact hS' (by simpa using h)

theorem sampledFraction_eq_one_iff (s : Info) {a b c d : ℝ} {S : ℕ} (hS : 0 < S) : sampledFraction s a b c d S = 1 ↔
    ∀ k l : Fin S, InViewcone s (a + ((k : ℕ) + 1 / 2) / S * (b - a)) (c + ((l : ℕ) + 1 / 2) / S * (d - c)) := by
  refine ⟨?_, sampledFraction_one s hS⟩
  intro h k l
  have hS' : (S : ℝ) ≠ 0 := by exact_mod_cast hS.ne'
  unfold sampledFraction at h
  rw [div_eq_one_iff_eq (by positivity)] at h
  have hcard : (Finset.univ.filter (fun kl : Fin S × Fin S =>
    InViewcone s (a + ((kl.1 : ℕ) + 1 / 2) / S * (b - a)) (c + ((kl.2 : ℕ) + 1 / 2) / S * (d - c)))).card = S ^ 2 := by exact_mod_cast h
  have : (Finset.univ.filter (fun kl : Fin S × Fin S =>
    InViewcone s (a + ((kl.1 : ℕ) + 1 / 2) / S * (b - a)) (c + ((kl.2 : ℕ) + 1 / 2) / S * (d - c)))) = Finset.univ := by
    apply Finset.eq_univ_of_card
    rw [hcard]; simp [sq]
  have hm := Finset.mem_univ ((k, l) : Fin S × Fin S)
  rw [← this] at hm
  exact (Finset.mem_filter.mp hm).2

/-- **C84** So on a uniform grid in degrees the overlap is the sampled fraction in every bin exactly if the corners do not mislead: when all corners are at
or inside the inner circle, or all at or outside the outer one, no subpixel centre of any bin is in the viewcone; and when
all corners are in the viewcone (and not all on its rim), every subpixel centre is. -/
theorem C84_sampled_fraction_iff (s : Info) (hd : Diffuse s) {p q : ℕ} (hp : 0 < p) (hq : 0 < q) (g : Grid p q) (hu : UniformDeg g) (S : ℕ)
    (hS : 0 < S) :
    let outside := (∀ j i, angularSeparation (g.lon i) (g.lat j) 0 0 ≤ s.viewconeMin) ∨
      (∀ j i, s.viewconeMax ≤ angularSeparation (g.lon i) (g.lat j) 0 0)
    let inside := ∀ j i, InViewcone s (g.lon i) (g.lat j)
    let subLon := fun (i : Fin p) (k : Fin S) => g.lon i.castSucc + ((k : ℕ) + 1 / 2) / S * (g.lon i.succ - g.lon i.castSucc)
    let subLat := fun (j : Fin q) (l : Fin S) => g.lat j.castSucc + ((l : ℕ) + 1 / 2) / S * (g.lat j.succ - g.lat j.castSucc)
    fovLonlatGridOverlap s g S = .ok (fun j i => .fin (sampledFraction s (g.lon i.castSucc) (g.lon i.succ) (g.lat j.castSucc)
      (g.lat j.succ) S)) ↔
      (outside → ∀ j i k l, ¬ InViewcone s (subLon i k) (subLat j l)) ∧
      (¬ outside → inside → ∀ j i k l, InViewcone s (subLon i k) (subLat j l)) := by
  intro outside inside subLon subLat
  obtain ⟨c1, c2, c3⟩ := C84_overlap s hd hp hq g hu S hS
  by_cases ho : outside
  · rw [c1 ho]
    constructor
    · intro h
      injection h with h
      refine ⟨fun _ j i => ?_, fun h' => absurd ho h'⟩
      exact (sampledFraction_eq_zero_iff s hS).mp (FV.fin.inj (congrFun (congrFun h j) i)).symm
    · rintro ⟨h, -⟩
      congr 1
      funext j i
      rw [(sampledFraction_eq_zero_iff s hS).mpr (h ho j i)]
  · by_cases hi : inside
    · rw [c2 ho hi]
      constructor
      · intro h
        injection h with h
        refine ⟨fun h' => absurd h' ho, fun _ _ j i => ?_⟩
        exact (sampledFraction_eq_one_iff s hS).mp (FV.fin.inj (congrFun (congrFun h j) i)).symm
      · rintro ⟨-, h⟩
        congr 1
        funext j i
        rw [(sampledFraction_eq_one_iff s hS).mpr (h ho hi j i)]
    · rw [c3 ho hi]
      exact ⟨fun _ => ⟨fun h => absurd h ho, fun _ h => absurd h hi⟩, fun _ => rfl⟩

/-! ## C85: unequal bins, other units -/

theorem overlap_of_edge {s : Info} {p q : ℕ} {g : Grid p q} {S : ℕ} (ho : ¬ allOutside s g) (hi : ¬ allInside s g) (hp : 0 < p) (hq : 0 < q)
    (j : Fin q) (i : Fin p) (he : edgeMask s (g.centerDist j i) (g.binMaxRadius ⟨1, by omega⟩ ⟨1, by omega⟩)) :
    ∃ f, fovLonlatGridOverlap s g S = .ok f ∧ f j i = coveredArea s (g.lonEdges i.castSucc) (g.latEdges j.castSucc)
      (g.lonEdges ⟨1, by omega⟩ - g.lonEdges 0) (g.latEdges ⟨1, by omega⟩ - g.latEdges 0) S := by
  unfold fovLonlatGridOverlap
  rw [if_neg ho, if_neg hi, dif_neg (by omega)]
  simp only []
  rw [if_neg (fun h => h j i he)]
  exact ⟨_, rfl, by rw [if_pos he]⟩

/-- fraction of a single subpixel -/
theorem sampledFraction_single (s : Info) (a b c d : ℝ) : 
    (InViewcone s ((a + b) / 2) ((c + d) / 2) → sampledFraction s a b c d 1 = 1) ∧
    (¬ InViewcone s ((a + b) / 2) ((c + d) / 2) → sampledFraction s a b c d 1 = 0) := by
  have e : ∀ (x y : ℝ) (k : Fin 1), x + ((k : ℕ) + 1 / 2 : ℝ) / ((1 : ℕ) : ℝ) * (y - x) = (x + y) / 2 := by
    intro x y k
    have : ((k : ℕ) : ℝ) = 0 := by have : (k : ℕ) = 0 := by omega
                                   exact_mod_cast this
    rw [this]; push_cast; ring
  constructor
  · intro h; apply sampledFraction_one s one_pos; intro k l; rw [e, e]; exact h
  · intro h; apply sampledFraction_zero s; intro k l; rw [e, e]; exact h

/-- **C85** (deviation, unequal bins) On the grid with longitudes -1, 1, 7 and latitudes -1, 1 degree in a viewcone of 3 degrees, the overlap of
the bin from 1 to 7 degrees (one subpixel) is 1 although its centre is outside: the code takes the width of the first bin for every bin. -/
theorem C85_unequal_bins_deviate :
    ∃ (g : Grid 2 1) (f : Fin 1 → Fin 2 → FV ℝ), g.unitLon = deg ∧ g.unitLat = deg ∧ StrictMono g.lonEdges ∧ StrictMono g.latEdges ∧
      CornersTell exCone g ∧ fovLonlatGridOverlap exCone g 1 = .ok f ∧ f 0 1 = .fin 1 ∧
      sampledFraction exCone (g.lon 1) (g.lon 2) (g.lat 0) (g.lat 1) 1 = 0 := by
  have hd := deg_pos
  have hle := deg_le
  have hpi := Real.pi_pos
  let g : Grid 2 1 := ⟨deg, deg, ![-1, 1, 7], ![-1, 1]⟩
  have c7 : 7 * deg ≤ g.cornerDist 0 2 := le_sep_lon (x := 7 * deg) (y := -1 * deg) (by positivity) (by linarith)
  have c1 : g.cornerDist 0 1 ≤ 2 * deg := sep_le_of (x := 1 * deg) (y := -1 * deg) (by positivity) (by nlinarith)
  have cc : g.centerDist 0 1 = 4 * deg := by
    show angularSeparation (0.5 * (1 * deg + 7 * deg)) (0.5 * (-1 * deg + 1 * deg)) 0 0 = _
    rw [show 0.5 * (1 * deg + 7 * deg) = 4 * deg by ring, show 0.5 * (-1 * deg + 1 * deg) = 0 by ring]
    exact sep_equator (by positivity) (by linarith)
  have ho : ¬ allOutside exCone g := by
    rintro (h | h)
    · have := h 0 2; change _ ≤ (0:ℝ) at this; linarith
    · have := h 0 1; change _ ≥ 3 * deg at this; linarith
  have hi : ¬ allInside exCone g := by
    rintro ⟨h, -⟩
    have := h 0 2; change _ ≤ 3 * deg at this; linarith
  have hR : deg < g.binMaxRadius ⟨1, by omega⟩ ⟨1, by omega⟩ := by
    show deg < Real.sqrt ((1 * deg - -1 * deg) ^ 2 + (1 * deg - -1 * deg) ^ 2) * 0.5
    have : 2 * deg < Real.sqrt ((1 * deg - -1 * deg) ^ 2 + (1 * deg - -1 * deg) ^ 2) := by
      apply Real.lt_sqrt_of_sq_lt; nlinarith
    linarith
  have he : edgeMask exCone (g.centerDist 0 1) (g.binMaxRadius ⟨1, by omega⟩ ⟨1, by omega⟩) := by
    right
    rw [cc]
    show 4 * deg < 3 * deg + _ ∧ 4 * deg > 3 * deg - _
    constructor <;> linarith
  obtain ⟨f, hf, hf1⟩ := overlap_of_edge (S := 1) ho hi (by omega) (by omega) 0 1 he
  refine ⟨g, f, rfl, rfl, ?_, ?_, ⟨⟨0, 2, ?_⟩, ⟨0, 1, ?_⟩, ?_⟩, hf, ?_, ?_⟩
  · rw [Fin.strictMono_iff_lt_succ]
    intro i; fin_cases i
    · show (-1:ℝ) < 1
      norm_num
    · show (1:ℝ) < 7
      norm_num
  · rw [Fin.strictMono_iff_lt_succ]
    intro i; fin_cases i
    show (-1:ℝ) < 1
    norm_num
  · show (0:ℝ) < _; linarith
  · show _ < 3 * deg; linarith
  · intro h
    have := (h 0 2).2
    change g.cornerDist 0 2 ≤ 3 * deg at this
    linarith
  · rw [hf1, coveredArea_eq _ one_pos]
    congr 1
    apply (sampledFraction_single _ _ _ _ _).1
    change InViewcone exCone ((1 * deg + (1 + (1 - -1)) * deg) / 2) ((-1 * deg + (-1 + (1 - -1)) * deg) / 2)
    rw [show (1 * deg + (1 + (1 - -1)) * deg) / 2 = 2 * deg by ring, show (-1 * deg + (-1 + (1 - -1)) * deg) / 2 = 0 by ring]
    refine ⟨(angularSeparation_mem _ _ _ _).1, ?_⟩
    rw [sep_equator (by positivity) (by linarith)]
    show 2 * deg ≤ 3 * deg
    linarith
  · apply (sampledFraction_single _ _ _ _ _).2
    rintro ⟨-, h⟩
    change angularSeparation ((1 * deg + 7 * deg) / 2) ((-1 * deg + 1 * deg) / 2) 0 0 ≤ 3 * deg at h
    rw [show (1 * deg + 7 * deg) / 2 = 4 * deg by ring, show (-1 * deg + 1 * deg) / 2 = 0 by ring, sep_equator (by positivity) (by linarith)] at h
    linarith

/-- **C85** (deviation, other units) Equal bins with edges in radian: with longitudes 0, 0.4, 0.8 and latitudes -0.2, 0.2 radian
and a viewcone of 0.5 radian, the overlap of the bin from 0.4 to 0.8 radian (one subpixel) is 1 although its centre at 0.6 radian is
outside: the numbers are read as degrees. -/
theorem C85_units_deviate :
    ∃ (s : Info) (g : Grid 2 1) (f : Fin 1 → Fin 2 → FV ℝ), Diffuse s ∧ g.unitLon = 1 ∧ g.unitLat = 1 ∧
      (∀ i : Fin 2, g.lonEdges i.succ - g.lonEdges i.castSucc = 0.4) ∧ (∀ i : Fin 1, g.latEdges i.succ - g.latEdges i.castSucc = 0.4) ∧
      CornersTell s g ∧ fovLonlatGridOverlap s g 1 = .ok f ∧ f 0 1 = .fin 1 ∧
      sampledFraction s (g.lon 1) (g.lon 2) (g.lat 0) (g.lat 1) 1 = 0 := by
  have hd := deg_pos
  have hle := deg_le
  have hpi := Real.two_le_pi
  have hpi4 := Real.pi_le_four
  let s : Info := ⟨100, 1, 10, 1000, -2, 0, 0.5⟩
  let g : Grid 2 1 := ⟨1, 1, ![0, 0.4, 0.8], ![-0.2, 0.2]⟩
  have c7 : 0.8 * 1 ≤ g.cornerDist 0 2 := le_sep_lon (x := 0.8 * 1) (y := -0.2 * 1) (by norm_num) (by linarith)
  have c1 : g.cornerDist 0 0 ≤ 0.2 := sep_le_of (x := 0 * 1) (y := -0.2 * 1) (by norm_num) (by norm_num)
  have cc : g.centerDist 0 1 = 0.6 := by
    show angularSeparation (0.5 * (0.4 * 1 + 0.8 * 1)) (0.5 * (-0.2 * 1 + 0.2 * 1)) 0 0 = _
    rw [show (0.5 * (0.4 * 1 + 0.8 * 1) : ℝ) = 0.6 by norm_num, show (0.5 * (-0.2 * 1 + 0.2 * 1) : ℝ) = 0 by norm_num]
    exact sep_equator (by norm_num) (by linarith)
  have ho : ¬ allOutside s g := by
    rintro (h | h)
    · have := h 0 2; change _ ≤ (0:ℝ) at this; linarith
    · have := h 0 0; change _ ≥ (0.5:ℝ) at this; linarith
  have hi : ¬ allInside s g := by
    rintro ⟨h, -⟩
    have := h 0 2; change _ ≤ (0.5:ℝ) at this; linarith
  have hR : 0.2 < g.binMaxRadius ⟨1, by omega⟩ ⟨1, by omega⟩ := by
    show 0.2 < Real.sqrt ((0.4 * 1 - 0 * 1) ^ 2 + (0.2 * 1 - -0.2 * 1) ^ 2) * 0.5
    have : 0.4 < Real.sqrt ((0.4 * 1 - 0 * 1) ^ 2 + (0.2 * 1 - -0.2 * 1) ^ 2) := by
      apply Real.lt_sqrt_of_sq_lt; norm_num
    linarith
  have he : edgeMask s (g.centerDist 0 1) (g.binMaxRadius ⟨1, by omega⟩ ⟨1, by omega⟩) := by
    right
    rw [cc]
    show 0.6 < 0.5 + _ ∧ 0.6 > 0.5 - _
    constructor <;> linarith
  obtain ⟨f, hf, hf1⟩ := overlap_of_edge (S := 1) ho hi (by omega) (by omega) 0 1 he
  refine ⟨s, g, f, ⟨le_rfl, by norm_num [s], by simp only [s]; linarith⟩, rfl, rfl, ?_, ?_, ⟨⟨0, 2, ?_⟩, ⟨0, 0, ?_⟩, ?_⟩, hf, ?_, ?_⟩
  · intro i; fin_cases i
    · show (0.4:ℝ) - 0 = 0.4
      norm_num
    · show (0.8:ℝ) - 0.4 = 0.4
      norm_num
  · intro i; fin_cases i
    show (0.2:ℝ) - -0.2 = 0.4
    norm_num
  · show (0:ℝ) < _; linarith
  · show _ < (0.5:ℝ); linarith
  · intro h
    have := (h 0 2).2
    change g.cornerDist 0 2 ≤ 0.5 at this
    linarith
  · rw [hf1, coveredArea_eq _ one_pos]
    congr 1
    apply (sampledFraction_single _ _ _ _ _).1
    change InViewcone s ((0.4 * deg + (0.4 + (0.4 - 0)) * deg) / 2) ((-0.2 * deg + (-0.2 + (0.2 - -0.2)) * deg) / 2)
    rw [show (0.4 * deg + (0.4 + (0.4 - 0)) * deg) / 2 = 0.6 * deg by ring, show (-0.2 * deg + (-0.2 + (0.2 - -0.2)) * deg) / 2 = 0 by ring]
    refine ⟨(angularSeparation_mem _ _ _ _).1, ?_⟩
    rw [sep_equator (by positivity) (by linarith)]
    show 0.6 * deg ≤ 0.5
    linarith
  · apply (sampledFraction_single _ _ _ _ _).2
    rintro ⟨-, h⟩
    change angularSeparation ((0.4 * 1 + 0.8 * 1) / 2) ((-0.2 * 1 + 0.2 * 1) / 2) 0 0 ≤ 0.5 at h
    rw [show ((0.4 * 1 + 0.8 * 1) / 2 : ℝ) = 0.6 by norm_num, show ((-0.2 * 1 + 0.2 * 1) / 2 : ℝ) = 0 by norm_num,
      sep_equator (by norm_num) (by linarith)] at h
    norm_num at h

/-- **C85** The overlap on any grid, edges in any unit, when neither all corners are on one side of the viewcone nor all in it: a bin whose centre is
closer to the inner or the outer circle than half the diagonal of the *first* bin gets the fraction of subpixel centres of the rectangle that starts at
the bin's lower edges, has the widths of the *first* bins and whose edge values are taken as *degrees*; any other bin gets 1 if its
centre is in the viewcone and 0 if not. If no bin is that close to a circle, IndexError is raised. -/
theorem C85_overlap (s : Info) {p q : ℕ} (hp : 0 < p) (hq : 0 < q) (g : Grid p q) (S : ℕ) (hS : 0 < S)
    (ho : ¬ ((∀ j i, angularSeparation (g.lon i) (g.lat j) 0 0 ≤ s.viewconeMin) ∨
      (∀ j i, s.viewconeMax ≤ angularSeparation (g.lon i) (g.lat j) 0 0)))
    (hi : ¬ ∀ j i, InViewcone s (g.lon i) (g.lat j)) :
    let one : Fin (p + 1) := ⟨1, by omega⟩
    let one' : Fin (q + 1) := ⟨1, by omega⟩
    let halfDiagonal := Real.sqrt ((g.lon one - g.lon 0) ^ 2 + (g.lat one' - g.lat 0) ^ 2) / 2
    let centerLon := fun i : Fin p => (g.lon i.castSucc + g.lon i.succ) / 2
    let centerLat := fun j : Fin q => (g.lat j.castSucc + g.lat j.succ) / 2
    let nearRim := fun (j : Fin q) (i : Fin p) => |angularSeparation (centerLon i) (centerLat j) 0 0 - s.viewconeMin| < halfDiagonal ∨
      |angularSeparation (centerLon i) (centerLat j) 0 0 - s.viewconeMax| < halfDiagonal
    ((∀ j i, ¬ nearRim j i) → fovLonlatGridOverlap s g S = .error .indexError) ∧
    ((∃ j i, nearRim j i) → ∃ f, fovLonlatGridOverlap s g S = .ok f ∧ ∀ j i,
      (nearRim j i → f j i = .fin (sampledFraction s (g.lonEdges i.castSucc * deg) ((g.lonEdges i.castSucc + (g.lonEdges one - g.lonEdges 0)) * deg)
        (g.latEdges j.castSucc * deg) ((g.latEdges j.castSucc + (g.latEdges one' - g.latEdges 0)) * deg) S)) ∧
      (¬ nearRim j i → InViewcone s (centerLon i) (centerLat j) → f j i = .fin 1) ∧
      (¬ nearRim j i → ¬ InViewcone s (centerLon i) (centerLat j) → f j i = .fin 0)) := by
  intro one one' halfDiagonal centerLon centerLat nearRim
  have hi' : ¬ allInside s g := fun h => hi (fun j i => ⟨h.2 j i, h.1 j i⟩)
  have ho' : ¬ allOutside s g := ho
  have hcd : ∀ j i, g.centerDist j i = angularSeparation (centerLon i) (centerLat j) 0 0 := by
    intro j i
    unfold Grid.centerDist
    rw [show 0.5 * (g.lon i.castSucc + g.lon i.succ) = centerLon i by simp only [centerLon]; ring,
      show 0.5 * (g.lat j.castSucc + g.lat j.succ) = centerLat j by simp only [centerLat]; ring]
  have hR : g.binMaxRadius one one' = halfDiagonal := by simp only [Grid.binMaxRadius, halfDiagonal]; ring
  have hedge : ∀ j i, edgeMask s (g.centerDist j i) (g.binMaxRadius one one') ↔ nearRim j i := by
    intro j i
    rw [hcd, hR]
    simp only [edgeMask, nearRim, abs_lt]
    constructor
    · rintro (⟨a, b⟩ | ⟨a, b⟩)
      · left; constructor <;> linarith
      · right; constructor <;> linarith
    · rintro (⟨a, b⟩ | ⟨a, b⟩)
      · left; constructor <;> linarith
      · right; constructor <;> linarith
  unfold fovLonlatGridOverlap
  rw [if_neg ho', if_neg hi', dif_neg (by omega)]
  simp only []
  constructor
  · intro h
    rw [if_pos (fun j i => (hedge j i).not.mpr (h j i))]
  · rintro ⟨j0, i0, h0⟩
    rw [if_neg (fun h => h j0 i0 ((hedge j0 i0).mpr h0))]
    refine ⟨_, rfl, ?_⟩
    intro j i
    refine ⟨?_, ?_, ?_⟩
    · intro h; rw [if_pos ((hedge j i).mpr h)]; exact coveredArea_eq s hS
    · intro h h'
      rw [if_neg ((hedge j i).not.mpr h), if_neg]
      rw [hcd]; rintro (q | q)
      · linarith [h'.2]
      · linarith [h'.1]
    · intro h h'
      rw [if_neg ((hedge j i).not.mpr h), if_pos]
      rw [hcd]
      by_contra hc
      rw [not_or, not_lt, not_lt] at hc
      exact h' ⟨hc.2, hc.1⟩

/-- the hypotheses of C85_overlap are met by the grid of exGrid -/
example : ¬ ((∀ j i, angularSeparation (exGrid.lon i) (exGrid.lat j) 0 0 ≤ exCone.viewconeMin) ∨
      (∀ j i, exCone.viewconeMax ≤ angularSeparation (exGrid.lon i) (exGrid.lat j) 0 0)) ∧
    ¬ ∀ j i, InViewcone exCone (exGrid.lon i) (exGrid.lat j) := by
  have hd := deg_pos
  have h4 : 4 * deg ≤ angularSeparation (4 * deg) (-1 * deg) 0 0 :=
    le_sep_lon (x := 4 * deg) (y := -1 * deg) (by positivity) (by linarith [deg_le])
  have h0 : angularSeparation (0 * deg) (-1 * deg) 0 0 ≤ deg := sep_le_of (x := 0 * deg) (y := -1 * deg) (r := deg) hd.le (by nlinarith)
  refine ⟨?_, ?_⟩
  · rintro (h | h)
    · have := h 0 2
      change angularSeparation (4 * deg) (-1 * deg) 0 0 ≤ (0:ℝ) at this
      linarith
    · have := h 0 1
      change 3 * deg ≤ angularSeparation (0 * deg) (-1 * deg) 0 0 at this
      linarith
  · intro h
    have := (h 0 2).2
    change angularSeparation (4 * deg) (-1 * deg) 0 0 ≤ 3 * deg at this
    linarith

end Pyirf.Simulations
