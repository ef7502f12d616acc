import Verif.Sensitivity.BgLemmas

/-!
# Property C22: estimate_background
-/
set_option linter.unusedSectionVars false
set_option linter.unusedSimpArgs false

namespace Pyirf.Sensitivity
open Pyirf Pyirf.Binning Pyirf.Utils

/-! ## Specification -/

open Classical in
/-- Sum of `g` over the events of the ring `lo <= offset < hi` whose energy lies in histogram bin `i` and that
satisfy `P`. -/
noncomputable def ringSum (events : List BgEvent) (lo hi : ℝ) (E : List (FV ℝ)) (i : ℕ) (P : BgEvent → Prop) (g : BgEvent → ℝ) : ℝ :=
  ((events.filter (fun e => decide ((∃ o, e.offset = .fin o ∧ lo ≤ o ∧ o < hi) ∧ InHistBin E i e.energy ∧ P e))).map
    g).sum

/-- Column `name` of table `t` has the finite value `v` in row `i`. -/
def HasCell (t : Table (FV ℝ)) (name : String) (i : ℕ) (v : ℝ) : Prop :=
  ∃ col, t.get name = .ok col ∧ col[i]? = some (.fin v)

/-- The weight used by the histogram. -/
def bgWeight (hasWeight : Bool) (e : BgEvent) : ℝ := if hasWeight then e.weight else 1

/-- The middle of a bin: half the sum of its edges, +inf for a bin that reaches to +inf (-inf for one that starts at -inf), NaN if an edge is
NaN or the bin is the whole line. -/
noncomputable def middle : FV ℝ → FV ℝ → FV ℝ
  | .fin a, .fin b => .fin ((a + b) / 2)
  | .fin _, .pinf | .pinf, .fin _ | .pinf, .pinf => .pinf
  | .fin _, .ninf | .ninf, .fin _ | .ninf, .ninf => .ninf
  | _, _ => .nan

/-! ## Lemmas -/

theorem dec_iff {p : Prop} {inst : Decidable p} : @decide p inst = true ↔ p := decide_eq_true_iff

theorem ge_lt_ring (o : FV ℝ) (lo hi : ℝ) :
    (FV.ge o (.fin lo) && FV.lt o (.fin hi)) = true ↔ ∃ x, o = .fin x ∧ lo ≤ x ∧ x < hi := by
  cases o <;> simp [FV.ge, FV.le, FV.lt]

theorem increasing_fin {E : List ℝ} (h : E.Pairwise (· < ·)) : Increasing (E.map FV.fin) := by
  unfold Increasing
  refine ⟨?_, ?_⟩
  · intro e he
    obtain ⟨x, -, rfl⟩ := List.mem_map.mp he
    simp
  · rw [List.pairwise_map]
    exact h.imp (fun hab => by simpa using hab.le)

theorem _root_.Pyirf.Np.Increasing1.increasing {E : List (FV ℝ)} (h : Np.Increasing1 E) : Increasing E :=
  ⟨fun e he => (h.1 e he).1, h.2.imp fun hab => FV.le_of_lt' hab⟩

theorem increasing1_fin {E : List ℝ} (h : E.Pairwise (· < ·)) : Np.Increasing1 (E.map FV.fin) := by
  refine ⟨?_, ?_⟩
  · intro e he
    obtain ⟨x, -, rfl⟩ := List.mem_map.mp he
    simp
  · rw [List.pairwise_map]
    exact h.imp (fun hab => by simpa using hab)

/-- Finite increasing edges followed by +inf, as `add_overflow_bins` returns them. -/
theorem increasing1_overflow {E : List ℝ} (h : E.Pairwise (· < ·)) : Np.Increasing1 (E.map FV.fin ++ [.pinf]) := by
  obtain ⟨h1, h2⟩ := increasing1_fin h
  refine ⟨?_, ?_⟩
  · intro e he
    rcases List.mem_append.mp he with he | he
    · exact h1 e he
    · rw [List.mem_singleton] at he; subst he; simp
  · rw [List.pairwise_append]
    refine ⟨h2, by simp, ?_⟩
    intro a ha b hb
    rw [List.mem_singleton] at hb; subst hb
    obtain ⟨x, -, rfl⟩ := List.mem_map.mp ha
    rfl

theorem sumOver_ring (events : List BgEvent) (lo hi : ℝ) (E : List (FV ℝ)) (i : ℕ) (g : Event ℝ → ℝ) (P : Event ℝ → Prop)
    [DecidablePred P] :
    sumOver (((ring events (.fin lo) (.fin hi)).map BgEvent.toEvent).filter (fun e => P e))
        (fun e => InHistBin E i e.key) g =
      ringSum events lo hi E i (fun e => P e.toEvent) (fun e => g e.toEvent) := by
  classical
  unfold sumOver ringSum ring
  rw [List.filter_filter, List.filter_map, List.map_map, List.filter_filter]
  congr 1
  show List.map (fun e : BgEvent => g e.toEvent) _ = _
  congr 1
  apply List.filter_congr
  intro e _
  rw [Bool.eq_iff_iff]
  simp only [Function.comp_apply, Bool.and_eq_true, BgEvent.toEvent]
  constructor
  · rintro ⟨⟨h1, h2⟩, h3⟩
    exact dec_iff.mpr ⟨(ge_lt_ring _ _ _).mp (by simpa using h3), dec_iff.mp h1, dec_iff.mp h2⟩
  · intro h
    obtain ⟨h1, h2, h3⟩ := dec_iff.mp h
    exact ⟨⟨dec_iff.mpr h2, dec_iff.mpr h3⟩, by simpa using (ge_lt_ring _ _ _).mpr h1⟩

theorem half_sum (a b : FV ℝ) : FV.fin (1 / 2) * (a + b) = middle a b := by
  have hp : (FV.fin (1 / 2) * FV.pinf : FV ℝ) = .pinf := FV.infSign_pos (by norm_num)
  have hn : (FV.fin (1 / 2) * FV.ninf : FV ℝ) = .ninf := by
    show FV.infSign (-(1 / 2) : ℝ) = _
    simp [FV.infSign]
  cases a <;> cases b
  all_goals first
    | exact hp
    | exact hn
    | (simp only [FV.fin_add_fin, FV.fin_mul_fin, middle]; congr 1; ring)
    | (simp [middle]; done)
    | rfl

theorem center_getElem (E : List (FV ℝ)) (i : ℕ) (hi : i + 1 < E.length) :
    (binCenter E)[i]? = some (middle E[i] E[i + 1]) := by
  have h1 : E.dropLast[i]? = some E[i] := by
    rw [List.getElem?_dropLast]; simp; omega
  have h2 : E.tail[i]? = some E[i+1] := by
    rw [List.getElem?_tail]; simp [hi]
  unfold binCenter
  rw [List.getElem?_zipWith, h1, h2]
  simp only [half_sum]

theorem middle_ne_nan {E : List (FV ℝ)} (hE : Np.Increasing1 E) (i : ℕ) (hi : i + 1 < E.length) : middle E[i] E[i + 1] ≠ .nan := by
  have h1 := hE.1 E[i] (List.getElem_mem _)
  have h2 := hE.1 E[i + 1] (List.getElem_mem _)
  generalize E[i] = a at h1 ⊢
  generalize E[i + 1] = b at h2 ⊢
  cases a <;> cases b <;> simp_all [middle]

theorem cone_ring_pos {lo hi : ℝ} (h0 : 0 ≤ lo) (h1 : lo < hi) (h2 : hi ≤ Real.pi) :
    0 < coneSolidAngle hi - coneSolidAngle lo :=
  sub_pos.mpr (C69_cone_values.2.2 ⟨h0, by linarith⟩ ⟨by linarith, h2⟩ h1)

/-- cell of a scaled column -/
theorem scaled_cell {E : List (FV ℝ)} {rows : List (Event ℝ)} {g : Event ℝ → ℝ} {nodes : List (FV ℝ × FV ℝ)} {lo hi α θ : ℝ} (hα : α ≠ 0)
    (hring : coneSolidAngle hi - coneSolidAngle lo ≠ 0) {i : ℕ} (hi' : i + 1 < E.length)
    (hθ : Np.interp nodes (middle E[i] E[i + 1]) = .fin θ) :
    (List.zipWith (fun x r => x * r / FV.fin α) ((column E rows g).map FV.fin)
      (ratios E nodes (.fin lo) (.fin hi)))[i]? =
      some (.fin (sumOver rows (fun e => InHistBin E i e.key) g *
        (coneSolidAngle θ / (coneSolidAngle hi - coneSolidAngle lo)) / α)) := by
  have h1 : ((column E rows g).map FV.fin)[i]? =
      some (.fin (sumOver rows (fun e => InHistBin E i e.key) g)) := by
    have hl : i < (List.range (E.length - 1)).length := by simp; omega
    unfold column
    rw [List.getElem?_map, List.getElem?_map, List.getElem?_eq_getElem hl]
    simp
  have h2 : (ratios E nodes (.fin lo) (.fin hi))[i]? =
      some (.fin (coneSolidAngle θ / (coneSolidAngle hi - coneSolidAngle lo))) := by
    unfold ratios
    rw [List.getElem?_map, center_getElem E i hi']
    simp only [Option.map_some, hθ, coneSolidAngleF, FV.fin_sub_fin]
    rw [FV.fin_div_fin _ _ hring]
  rw [List.getElem?_zipWith, h1, h2]
  simp only [FV.fin_mul_fin]
  rw [FV.fin_div_fin _ _ hα]

/-! ## C22 -/

/-- **C22** For strictly increasing energy edges of which the last may be +inf (an overflow bin), a non-empty theta cut table with increasing
centers (the last may be +inf) and finite cuts, a ring
`0 <= lo < hi <= 180 deg` and `alpha != 0`, the table is computed, has the binning of the edges, and in every bin each count
column is the number (or weight) of the events with `lo <= offset < hi` in the bin, times the solid angle of the theta cut
interpolated at the bin centre, divided by the solid angle of the ring and by alpha. This also holds per particle type when
their names do not collide. -/
theorem C22_scaled_counts (hasWeight hasParticle : Bool) (events : List BgEvent) (E : List (FV ℝ)) (hE : Np.Increasing1 E)
    (xs : List (FV ℝ)) (θs : List ℝ) (hxs : Np.Increasing1 xs) (hne : xs ≠ []) (hl : θs.length = xs.length) (α lo hi : ℝ) (hα : α ≠ 0)
    (h0 : 0 ≤ lo) (h1 : lo < hi) (h2 : hi ≤ Real.pi)
    (hw : hasParticle = true → ∀ e ∈ events, e.particle ≠ "weighted") :
    ∃ out, estimateBackground hasWeight hasParticle events E (xs.zip (θs.map .fin)) (.fin α) (.fin lo) (.fin hi)
        = .ok out ∧
      out.get "reco_energy_low" = .ok E.dropLast ∧ out.get "reco_energy_high" = .ok E.tail ∧
      ∀ (i : ℕ) (hi' : i + 1 < E.length), ∃ θ, Np.interp (xs.zip (θs.map .fin)) (middle E[i] E[i + 1]) = .fin θ ∧
        HasCell out "n" i (ringSum events lo hi E i (fun _ => True) (fun _ => 1) *
          (coneSolidAngle θ / (coneSolidAngle hi - coneSolidAngle lo)) / α) ∧
        HasCell out "n_weighted" i (ringSum events lo hi E i (fun _ => True) (bgWeight hasWeight) *
          (coneSolidAngle θ / (coneSolidAngle hi - coneSolidAngle lo)) / α) ∧
        (hasParticle = true →
          (∀ e ∈ events, ∀ f ∈ events, e.particle ≠ f.particle ++ "_weighted") →
          ∀ p, (∃ e ∈ events, e.particle = p ∧ ∃ o, e.offset = .fin o ∧ lo ≤ o ∧ o < hi) →
            HasCell out ("n_" ++ p) i (ringSum events lo hi E i (fun e => e.particle = p) (fun _ => 1) *
              (coneSolidAngle θ / (coneSolidAngle hi - coneSolidAngle lo)) / α) ∧
            HasCell out ("n_" ++ p ++ "_weighted") i (ringSum events lo hi E i (fun e => e.particle = p) (bgWeight hasWeight) *
              (coneSolidAngle θ / (coneSolidAngle hi - coneSolidAngle lo)) / α)) := by
  have hring := (cone_ring_pos h0 h1 h2).ne'
  have hmemring : ∀ p, p ∈ particles ((ring events (.fin lo) (.fin hi)).map BgEvent.toEvent) ↔
      ∃ e ∈ events, e.particle = p ∧ ∃ o, e.offset = .fin o ∧ lo ≤ o ∧ o < hi := by
    intro p
    unfold particles ring
    rw [List.map_map, List.mem_map]
    constructor
    · rintro ⟨e, he, rfl⟩
      rw [List.mem_filter] at he
      exact ⟨e, he.1, rfl, (ge_lt_ring _ _ _).mp he.2⟩
    · rintro ⟨e, he, rfl, ho⟩
      exact ⟨e, by rw [List.mem_filter]; exact ⟨he, (ge_lt_ring _ _ _).mpr ho⟩, rfl⟩
  obtain ⟨T, hT, t1, t2, t3, t4, t5, t6⟩ := histTable_cols hE.increasing hasWeight hasParticle
    ((ring events (.fin lo) (.fin hi)).map BgEvent.toEvent) (by
      intro hp hmem
      obtain ⟨e, he, hep, -⟩ := (hmemring _).mp hmem
      exact hw hp e he hep)
  obtain ⟨out, hout, -, hget⟩ := estimateBackground_ok (thetaCuts := xs.zip (θs.map .fin)) (alpha := .fin α) hT
  refine ⟨out, hout, ?_, ?_, ?_⟩
  · rw [hget _ _ t1, if_neg (by decide)]
  · rw [hget _ _ t2, if_neg (by decide)]
  · intro i hi'
    obtain ⟨θ, hθ⟩ : ∃ θ, Np.interp (xs.zip (θs.map .fin)) (middle E[i] E[i + 1]) = .fin θ := by
      have : ∃ b, ∀ f ∈ θs, -b ≤ f ∧ f ≤ b := by
        clear hl hget hout
        induction θs with
        | nil => exact ⟨0, by simp⟩
        | cons n l ih =>
          obtain ⟨b, hb⟩ := ih
          refine ⟨max b |n|, ?_⟩
          intro m hm
          rcases List.mem_cons.mp hm with rfl | hm
          · exact ⟨by have := neg_abs_le m; have := le_max_right b |m|; linarith, by
              have := le_abs_self m; have := le_max_right b |m|; linarith⟩
          · have := hb m hm; have := le_max_left b |n|
            exact ⟨by linarith, by linarith⟩
      obtain ⟨b, hb⟩ := this
      obtain ⟨v, hv, -⟩ := Np.interpFV_bounds xs hxs hne (middle E[i] E[i + 1]) (middle_ne_nan hE i hi') θs hl _ _ hb
      exact ⟨v, hv⟩
    refine ⟨θ, hθ, ?_, ?_, ?_⟩
    · refine ⟨_, hget _ _ t4, ?_⟩
      rw [if_pos scaled_n, scaled_cell hα hring hi' hθ]
      have := sumOver_ring events lo hi E i (fun _ => 1) (fun _ => True)
      simp only [decide_true, List.filter_true] at this
      rw [this]
    · refine ⟨_, hget _ _ t5, ?_⟩
      rw [if_pos scaled_nw, scaled_cell hα hring hi' hθ]
      have := sumOver_ring events lo hi E i (fun e => if hasWeight then e.weight else 1) (fun _ => True)
      simp only [decide_true, List.filter_true] at this
      rw [this]
      rfl
    · intro hp hcl p hpm
      have hnc : NoClash ((ring events (.fin lo) (.fin hi)).map BgEvent.toEvent) := by
        intro q hq
        obtain ⟨e, he, hep, -⟩ := (hmemring _).mp hq
        refine ⟨hep ▸ hw hp e he, ?_⟩
        intro q' hq'
        obtain ⟨f, hf, hfp, -⟩ := (hmemring _).mp hq'
        rw [← hep, ← hfp]
        exact hcl e he f hf
      obtain ⟨a, b⟩ := t6 hp hnc p ((hmemring _).mpr hpm)
      constructor
      · refine ⟨_, hget _ _ a, ?_⟩
        rw [if_pos (scaled_prefix _), scaled_cell hα hring hi' hθ, sumOver_ring]
        rfl
      · refine ⟨_, hget _ _ b, ?_⟩
        rw [if_pos (by rw [String.append_assoc]; exact scaled_prefix _), scaled_cell hα hring hi' hθ, sumOver_ring]
        rfl

/-- **C22** The estimate is additive over event lists, proportional to `1/alpha`, and non-decreasing in the theta cut. -/
theorem C22_additive (hasWeight hasParticle : Bool) (ev1 ev2 : List BgEvent) (E : List (FV ℝ)) (hE : Np.Increasing1 E)
    (xs : List (FV ℝ)) (θs : List ℝ) (hxs : Np.Increasing1 xs) (hne : xs ≠ []) (hl : θs.length = xs.length) (α lo hi : ℝ) (hα : α ≠ 0)
    (h0 : 0 ≤ lo) (h1 : lo < hi) (h2 : hi ≤ Real.pi)
    (hw : hasParticle = true → ∀ e ∈ ev1 ++ ev2, e.particle ≠ "weighted") (o1 o2 o12 : Table (FV ℝ))
    (e1 : estimateBackground hasWeight hasParticle ev1 E (xs.zip (θs.map .fin)) (.fin α) (.fin lo) (.fin hi) = .ok o1)
    (e2 : estimateBackground hasWeight hasParticle ev2 E (xs.zip (θs.map .fin)) (.fin α) (.fin lo) (.fin hi) = .ok o2)
    (e12 : estimateBackground hasWeight hasParticle (ev1 ++ ev2) E (xs.zip (θs.map .fin)) (.fin α) (.fin lo) (.fin hi)
      = .ok o12) (i : ℕ) (hi' : i + 1 < E.length) :
    ∀ c ∈ ["n", "n_weighted"], ∃ a b, HasCell o1 c i a ∧ HasCell o2 c i b ∧ HasCell o12 c i (a + b) := by
  have hsum : ∀ g, ringSum (ev1 ++ ev2) lo hi E i (fun _ => True) g
      = ringSum ev1 lo hi E i (fun _ => True) g + ringSum ev2 lo hi E i (fun _ => True) g := by
    intro g; unfold ringSum; rw [List.filter_append, List.map_append, List.sum_append]
  obtain ⟨q1, k1, -, -, c1⟩ := C22_scaled_counts hasWeight hasParticle ev1 E hE xs θs hxs hne hl α lo hi hα h0 h1 h2
    (fun hp e he => hw hp e (by simp [he]))
  obtain ⟨q2, k2, -, -, c2⟩ := C22_scaled_counts hasWeight hasParticle ev2 E hE xs θs hxs hne hl α lo hi hα h0 h1 h2
    (fun hp e he => hw hp e (by simp [he]))
  obtain ⟨q12, k12, -, -, c12⟩ := C22_scaled_counts hasWeight hasParticle (ev1 ++ ev2) E hE xs θs hxs hne hl α lo hi hα h0 h1 h2 hw
  rw [e1] at k1; rw [e2] at k2; rw [e12] at k12
  obtain rfl := Except.ok.inj k1; obtain rfl := Except.ok.inj k2; obtain rfl := Except.ok.inj k12
  obtain ⟨θ, hθ, n1, w1, -⟩ := c1 i hi'
  obtain ⟨θ', hθ', n2, w2, -⟩ := c2 i hi'
  obtain ⟨θ'', hθ'', n12, w12, -⟩ := c12 i hi'
  rw [hθ] at hθ' hθ''
  obtain rfl := FV.fin.inj hθ'; obtain rfl := FV.fin.inj hθ''
  intro c hc
  rcases List.mem_cons.mp hc with rfl | hc
  · refine ⟨_, _, n1, n2, ?_⟩
    rw [hsum] at n12
    convert n12 using 1; ring
  · rcases List.mem_cons.mp hc with rfl | hc
    · refine ⟨_, _, w1, w2, ?_⟩
      rw [hsum] at w12
      convert w12 using 1; ring
    · simp at hc

/-- **C22** Proportional to `1/alpha`. -/
theorem C22_alpha (hasWeight hasParticle : Bool) (events : List BgEvent) (E : List (FV ℝ)) (hE : Np.Increasing1 E)
    (xs : List (FV ℝ)) (θs : List ℝ) (hxs : Np.Increasing1 xs) (hne : xs ≠ []) (hl : θs.length = xs.length) (α k lo hi : ℝ) (hα : α ≠ 0) (hk : k ≠ 0)
    (h0 : 0 ≤ lo) (h1 : lo < hi) (h2 : hi ≤ Real.pi)
    (hw : hasParticle = true → ∀ e ∈ events, e.particle ≠ "weighted") (o o' : Table (FV ℝ))
    (e1 : estimateBackground hasWeight hasParticle events E (xs.zip (θs.map .fin)) (.fin α) (.fin lo) (.fin hi) = .ok o)
    (e2 : estimateBackground hasWeight hasParticle events E (xs.zip (θs.map .fin)) (.fin (k * α)) (.fin lo) (.fin hi)
      = .ok o') (i : ℕ) (hi' : i + 1 < E.length) :
    ∀ c ∈ ["n", "n_weighted"], ∃ a, HasCell o c i a ∧ HasCell o' c i (a / k) := by
  obtain ⟨q1, k1, -, -, c1⟩ := C22_scaled_counts hasWeight hasParticle events E hE xs θs hxs hne hl α lo hi hα h0 h1 h2 hw
  obtain ⟨q2, k2, -, -, c2⟩ := C22_scaled_counts hasWeight hasParticle events E hE xs θs hxs hne hl (k * α) lo hi
    (mul_ne_zero hk hα) h0 h1 h2 hw
  rw [e1] at k1; rw [e2] at k2
  obtain rfl := Except.ok.inj k1; obtain rfl := Except.ok.inj k2
  obtain ⟨θ, hθ, n1, w1, -⟩ := c1 i hi'
  obtain ⟨θ', hθ', n2, w2, -⟩ := c2 i hi'
  rw [hθ] at hθ'
  obtain rfl := FV.fin.inj hθ'
  intro c hc
  rcases List.mem_cons.mp hc with rfl | hc
  · refine ⟨_, n1, ?_⟩
    convert n2 using 1; field_simp
  · rcases List.mem_cons.mp hc with rfl | hc
    · refine ⟨_, w1, ?_⟩
      convert w2 using 1; field_simp
    · simp at hc

/-- **C22** Non-decreasing in the theta cuts (in [0, 180 deg]): raising cut values never lowers a count column, for
non-negative weights. -/
theorem C22_monotone_in_cut (hasWeight hasParticle : Bool) (events : List BgEvent) (E : List (FV ℝ)) (hE : Np.Increasing1 E)
    (xs : List (FV ℝ)) (fs gs : List ℝ) (hxs : Np.Increasing1 xs) (hne : xs ≠ []) (hfl : fs.length = xs.length) (hgl : gs.length = xs.length)
    (hfg : List.Forall₂ (· ≤ ·) fs gs) (hf0 : ∀ f ∈ fs, 0 ≤ f) (hg1 : ∀ g ∈ gs, g ≤ Real.pi)
    (α lo hi : ℝ) (hα : 0 < α) (h0 : 0 ≤ lo) (h1 : lo < hi) (h2 : hi ≤ Real.pi)
    (hwt : ∀ e ∈ events, 0 ≤ e.weight)
    (hw : hasParticle = true → ∀ e ∈ events, e.particle ≠ "weighted") (o o' : Table (FV ℝ))
    (e1 : estimateBackground hasWeight hasParticle events E (xs.zip (fs.map .fin)) (.fin α) (.fin lo) (.fin hi) = .ok o)
    (e2 : estimateBackground hasWeight hasParticle events E (xs.zip (gs.map .fin)) (.fin α) (.fin lo) (.fin hi)
      = .ok o') (i : ℕ) (hi' : i + 1 < E.length) :
    ∀ c ∈ ["n", "n_weighted"], ∃ a b, HasCell o c i a ∧ HasCell o' c i b ∧ a ≤ b := by
  obtain ⟨q1, k1, -, -, c1⟩ := C22_scaled_counts hasWeight hasParticle events E hE xs fs hxs hne hfl α lo hi hα.ne' h0 h1
    h2 hw
  obtain ⟨q2, k2, -, -, c2⟩ := C22_scaled_counts hasWeight hasParticle events E hE xs gs hxs hne hgl α lo hi hα.ne' h0 h1
    h2 hw
  rw [e1] at k1; rw [e2] at k2
  obtain rfl := Except.ok.inj k1; obtain rfl := Except.ok.inj k2
  obtain ⟨θ, hθ, n1, w1, -⟩ := c1 i hi'
  obtain ⟨θ', hθ', n2, w2, -⟩ := c2 i hi'
  obtain ⟨v, w, hv, hww, hvw⟩ := Np.interpFV_mono xs hxs hne (middle E[i] E[i + 1]) (middle_ne_nan hE i hi') fs gs hfl hgl hfg
  rw [hθ] at hv; rw [hθ'] at hww
  obtain rfl := FV.fin.inj hv; obtain rfl := FV.fin.inj hww
  have hθ0 : 0 ≤ θ := by
    obtain ⟨b, hb⟩ : ∃ b, ∀ f ∈ fs, f ≤ b := by
      refine ⟨Real.pi, ?_⟩
      intro f hf
      obtain ⟨j, hj, rfl⟩ := List.getElem_of_mem hf
      have hj' : j < gs.length := by omega
      exact le_trans (List.forall₂_iff_get.mp hfg |>.2 j hj hj') (hg1 _ (List.getElem_mem hj'))
    obtain ⟨u, hu, hu0, -⟩ := Np.interpFV_bounds xs hxs hne (middle E[i] E[i + 1]) (middle_ne_nan hE i hi') fs hfl 0 b
      (fun f hf => ⟨hf0 f hf, hb f hf⟩)
    rw [hθ] at hu
    rw [FV.fin.inj hu]; exact hu0
  have hθ1 : θ' ≤ Real.pi := by
    obtain ⟨b, hb⟩ : ∃ b, ∀ g ∈ gs, b ≤ g := by
      refine ⟨0, ?_⟩
      intro g hg
      obtain ⟨j, hj, rfl⟩ := List.getElem_of_mem hg
      have hj' : j < fs.length := by omega
      exact le_trans (hf0 _ (List.getElem_mem hj')) (List.forall₂_iff_get.mp hfg |>.2 j hj' hj)
    obtain ⟨u, hu, -, hu1⟩ := Np.interpFV_bounds xs hxs hne (middle E[i] E[i + 1]) (middle_ne_nan hE i hi') gs hgl b Real.pi
      (fun g hg => ⟨hb g hg, hg1 g hg⟩)
    rw [hθ'] at hu
    rw [FV.fin.inj hu]; exact hu1
  have hcone : coneSolidAngle θ ≤ coneSolidAngle θ' :=
    C69_cone_values.2.2.monotoneOn ⟨hθ0, le_trans hvw hθ1⟩ ⟨le_trans hθ0 hvw, hθ1⟩ hvw
  have hring := cone_ring_pos h0 h1 h2
  have hscale : coneSolidAngle θ / (coneSolidAngle hi - coneSolidAngle lo) ≤ coneSolidAngle θ' / (coneSolidAngle hi - coneSolidAngle lo) :=
    div_le_div_of_nonneg_right hcone hring.le
  have hnn : ∀ g : BgEvent → ℝ, (∀ e ∈ events, 0 ≤ g e) → 0 ≤ ringSum events lo hi E i (fun _ => True) g := by
    intro g hg
    unfold ringSum
    apply List.sum_nonneg
    intro x hx
    obtain ⟨e, he, rfl⟩ := List.mem_map.mp hx
    exact hg e (List.mem_filter.mp he).1
  intro c hc
  rcases List.mem_cons.mp hc with rfl | hc
  · refine ⟨_, _, n1, n2, ?_⟩
    exact div_le_div_of_nonneg_right (mul_le_mul_of_nonneg_left hscale (hnn _ (fun _ _ => zero_le_one))) hα.le
  · rcases List.mem_cons.mp hc with rfl | hc
    · refine ⟨_, _, w1, w2, ?_⟩
      refine div_le_div_of_nonneg_right (mul_le_mul_of_nonneg_left hscale (hnn _ ?_)) hα.le
      intro e he
      unfold bgWeight
      split
      · exact hwt e he
      · exact zero_le_one
    · simp at hc

/-- The hypotheses are met, also with an overflow bin: two protons, one in the ring and the first bin, one outside of the ring; the theta
cut table has an overflow bin too, so its last centre is +inf. -/
example : ∃ out, estimateBackground true true [⟨.fin (3/2), .fin (1/10), 7, "proton"⟩, ⟨.fin (3/2), .fin 1, 5, "proton"⟩]
    ([1, 2, 4].map FV.fin ++ [.pinf]) (([3/2, 3].map (FV.fin (K := ℝ)) ++ [FV.pinf]).zip ([1/5, 1/10, 1/20].map FV.fin)) (.fin (1/5)) (.fin 0) (.fin (1/2)) = .ok out := by
  obtain ⟨out, h, -⟩ := C22_scaled_counts true true [⟨.fin (3/2), .fin (1/10), 7, "proton"⟩, ⟨.fin (3/2), .fin 1, 5, "proton"⟩]
    ([1, 2, 4].map FV.fin ++ [.pinf]) (increasing1_overflow (by norm_num)) ([3/2, 3].map FV.fin ++ [.pinf]) [1/5, 1/10, 1/20]
    (increasing1_overflow (by norm_num)) (by simp) (by simp) (1/5) 0 (1/2)
    (by norm_num) (by norm_num) (by norm_num) (by have := Real.one_le_pi_div_two; linarith) (by
      intro _ e he; simp at he; rcases he with rfl | rfl <;> decide)
  exact ⟨out, h⟩

end Pyirf.Sensitivity
