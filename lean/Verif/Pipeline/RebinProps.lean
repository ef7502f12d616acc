import Verif.Pipeline.FoldProps
import Verif.Irf.BackgroundProps

/-!
# Merging bins (C121)

Edges are dropped from an axis (the last edge stays): every coarse bin is made of fine bins. What the functions return for the coarse bins
is determined by what they return for the fine ones.
-/
set_option linter.unusedSectionVars false

namespace Pyirf.Pipeline
open Pyirf Pyirf.Np Pyirf.Simulations Pyirf.Irf Pyirf.Utils Pyirf.Binning

/-! ## Specification -/

/-- The coarse edges are some of the fine edges, in the same order, among them the last one: coarse edge `i` is fine edge `f i`. -/
structure Coarsens {α : Type*} {n p : ℕ} (fine : Fin (n + 1) → α) (coarse : Fin (p + 1) → α) (f : Fin (p + 1) → Fin (n + 1)) : Prop where
  mono : StrictMono f
  last : f (Fin.last p) = Fin.last n
  edge : ∀ i, coarse i = fine (f i)

/-- The fine bins that make up the coarse bin `i`. -/
def parts {n p : ℕ} (f : Fin (p + 1) → Fin (n + 1)) (i : Fin p) : Finset (Fin n) :=
  Finset.univ.filter fun b => f i.castSucc ≤ b.castSucc ∧ b.succ ≤ f i.succ

/-! ## Lemmas -/

theorem mem_parts {n p : ℕ} {f : Fin (p + 1) → Fin (n + 1)} {i : Fin p} {b : Fin n} :
    b ∈ parts f i ↔ f i.castSucc ≤ b.castSucc ∧ b.succ ≤ f i.succ := by simp [parts]

theorem Coarsens.inc {K : Type*} [Field K] [LinearOrder K] {n p : ℕ} {fine : Fin (n + 1) → FV K} {coarse : Fin (p + 1) → FV K} {f : Fin (p + 1) → Fin (n + 1)}
    (h : Coarsens fine coarse f) (hf : IncEdges fine) : IncEdges coarse := by
  refine ⟨fun i => ?_, fun i j hij => ?_⟩
  · rw [h.edge]; exact hf.1 _
  · rw [h.edge, h.edge]; exact hf.2 _ _ (h.mono.monotone hij)

theorem Coarsens.strictMono {n p : ℕ} {fine : Fin (n + 1) → ℝ} {coarse : Fin (p + 1) → ℝ} {f : Fin (p + 1) → Fin (n + 1)}
    (h : Coarsens fine coarse f) (hf : StrictMono fine) : StrictMono coarse := by
  intro i j hij
  rw [h.edge, h.edge]; exact hf (h.mono hij)

theorem Coarsens.monotone {n p : ℕ} {fine : Fin (n + 1) → ℝ} {coarse : Fin (p + 1) → ℝ} {f : Fin (p + 1) → Fin (n + 1)}
    (h : Coarsens fine coarse f) (hf : Monotone fine) : Monotone coarse := by
  intro i j hij
  rw [h.edge, h.edge]; exact hf (h.mono.monotone hij)

theorem Coarsens.map {α β : Type*} (g : α → β) {n p : ℕ} {fine : Fin (n + 1) → α} {coarse : Fin (p + 1) → α} {f : Fin (p + 1) → Fin (n + 1)}
    (h : Coarsens fine coarse f) : Coarsens (fun i => g (fine i)) (fun i => g (coarse i)) f :=
  ⟨h.mono, h.last, fun i => by rw [h.edge]⟩

theorem Coarsens.refl {α : Type*} {n : ℕ} (fine : Fin (n + 1) → α) : Coarsens fine fine id := ⟨strictMono_id, rfl, fun _ => rfl⟩

theorem parts_id {n : ℕ} (i : Fin n) : parts (id : Fin (n + 1) → Fin (n + 1)) i = {i} := by
  ext b
  simp only [mem_parts, id_eq, Finset.mem_singleton, Fin.le_def, Fin.val_castSucc, Fin.val_succ, Fin.ext_iff]
  omega

theorem parts_nonempty {n p : ℕ} {f : Fin (p + 1) → Fin (n + 1)} (h : StrictMono f) (i : Fin p) : (parts f i).Nonempty := by
  have hlt : f i.castSucc < f i.succ := h Fin.castSucc_lt_succ
  have h2 := (f i.succ).isLt
  have h1 : ((f i.castSucc : Fin (n + 1)) : ℕ) < (f i.succ : Fin (n + 1)) := hlt
  refine ⟨⟨(f i.castSucc : ℕ), by omega⟩, mem_parts.mpr ⟨?_, ?_⟩⟩
  · rw [Fin.le_def]; exact le_rfl
  · rw [Fin.le_def]; exact h1

/-- a value is in a coarse bin exactly if it is in one of the fine bins that make it up -/
theorem Coarsens.inBin_iff {K : Type*} [Field K] [LinearOrder K] {n p : ℕ} {fine : Fin (n + 1) → FV K} {coarse : Fin (p + 1) → FV K} {f : Fin (p + 1) → Fin (n + 1)}
    (h : Coarsens fine coarse f) (hf : IncEdges fine) (i : Fin p) (x : FV K) : InBinOf coarse i x ↔ ∃ b ∈ parts f i, InBinOf fine b x := by
  have hlt : ((f i.castSucc : Fin (n + 1)) : ℕ) < (f i.succ : Fin (n + 1)) := h.mono Fin.castSucc_lt_succ
  have hle := (f i.succ).isLt
  have hlast : (i : ℕ) + 1 = p ↔ f i.succ = Fin.last n := by
    rw [← h.last, h.mono.injective.eq_iff, Fin.ext_iff]
    simp
  constructor
  · rintro ⟨h1, h2⟩
    rw [h.edge] at h1 h2
    have hxr : InRangeOf fine x := by
      refine ⟨FV.le_trans' (hf.2 _ _ (Fin.zero_le _)) h1, ?_⟩
      rcases h2 with h2 | h2
      · exact FV.le_trans' (FV.le_of_lt' h2) (hf.2 _ _ (Fin.le_last _))
      · exact FV.le_trans' h2.2 (hf.2 _ _ (Fin.le_last _))
    obtain ⟨b, hb⟩ := (inBinOf_range hf (by omega) x).mpr hxr
    refine ⟨b, mem_parts.mpr ⟨?_, ?_⟩, hb⟩
    · by_contra hc
      have hc' : ((b : ℕ)) < (f i.castSucc : Fin (n + 1)) := by simpa [Fin.le_def] using hc
      rcases hb.2 with h3 | h3
      · have h4 : FV.le (fine b.succ) (fine (f i.castSucc)) = true := hf.2 _ _ (by rw [Fin.le_def, Fin.val_succ]; omega)
        exact absurd (FV.lt_of_lt_of_le' h3 (FV.le_trans' h4 h1)) (by rw [FV.lt_irrefl']; simp)
      · omega
    · by_contra hc
      have hc' : ((f i.succ : Fin (n + 1)) : ℕ) < b + 1 := by simpa [Fin.le_def] using hc
      have h4 : FV.le (fine (f i.succ)) (fine b.castSucc) = true := hf.2 _ _ (by rw [Fin.le_def, Fin.val_castSucc]; omega)
      rcases h2 with h3 | h3
      · exact absurd (FV.lt_of_lt_of_le' h3 (FV.le_trans' h4 hb.1)) (by rw [FV.lt_irrefl']; simp)
      · have := hlast.mp h3.1
        rw [Fin.ext_iff, Fin.val_last] at this
        have := b.isLt
        omega
  · rintro ⟨b, hb, h1, h2⟩
    obtain ⟨hb1, hb2⟩ := mem_parts.mp hb
    refine ⟨?_, ?_⟩
    · rw [h.edge]; exact FV.le_trans' (hf.2 _ _ hb1) h1
    · rw [h.edge]
      rcases h2 with h2 | h2
      · exact Or.inl (FV.lt_of_lt_of_le' h2 (hf.2 _ _ hb2))
      · refine Or.inr ⟨hlast.mpr ?_, FV.le_trans' h2.2 (hf.2 _ _ hb2)⟩
        rw [Fin.ext_iff, Fin.val_last]
        rw [Fin.le_def, Fin.val_succ] at hb2
        omega

/-- summing over disjoint conditions -/
theorem sum_parts {K σ ι : Type*} [Field K] [LinearOrder K] [Fintype ι] [DecidableEq ι] (l : List σ) (S : Finset ι) (P : ι → σ → Prop) [∀ i, DecidablePred (P i)] (Q : σ → Prop)
    [DecidablePred Q] (w : σ → K) (hu : ∀ r i j, P i r → P j r → i = j) (hc : ∀ r, Q r ↔ ∃ i ∈ S, P i r) :
    ∑ i ∈ S, sumWhere l (P i) w = sumWhere l Q w := by
  rw [← sum_sumWhere l (fun i r => i ∈ S ∧ P i r) Q w (fun r i j hi hj => hu r i j hi.2 hj.2) (fun r => by rw [hc r])]
  rw [← Finset.sum_filter_add_sum_filter_not Finset.univ (fun i => i ∈ S)]
  have e1 : ∑ i with i ∈ S, sumWhere l (fun r => i ∈ S ∧ P i r) w = ∑ i ∈ S, sumWhere l (P i) w := by
    rw [Finset.filter_univ_mem]
    exact Finset.sum_congr rfl fun i hi => sumWhere_congr l (fun r _ => by simp [hi]) (fun _ _ => rfl)
  have e2 : ∑ i with i ∉ S, sumWhere l (fun r => i ∈ S ∧ P i r) w = 0 := by
    refine Finset.sum_eq_zero fun i hi => ?_
    have hi' : i ∉ S := by simpa using hi
    unfold sumWhere
    rw [List.filter_eq_nil_iff.mpr]
    · simp
    · intro a _; simp [hi']
  rw [e1, e2, add_zero]

theorem sum_parts_number {σ ι : Type*} [Fintype ι] [DecidableEq ι] (l : List σ) (S : Finset ι) (P : ι → σ → Prop) [∀ i, DecidablePred (P i)] (Q : σ → Prop)
    [DecidablePred Q] (hu : ∀ r i j, P i r → P j r → i = j) (hc : ∀ r, Q r ↔ ∃ i ∈ S, P i r) :
    ∑ i ∈ S, (numberWhere l (P i) : ℝ) = numberWhere l Q := by
  have := sum_parts (K := ℝ) l S P Q (fun _ => 1) hu hc
  simpa only [sumWhere_one, numberWhere] using this

/-- differences of the values at the edges of a fine bin add up over the parts of a coarse bin -/
theorem sum_parts_sub {n p : ℕ} {f : Fin (p + 1) → Fin (n + 1)} (hf : StrictMono f) (i : Fin p) (g : Fin (n + 1) → ℝ) :
    ∑ b ∈ parts f i, (g b.succ - g b.castSucc) = g (f i.succ) - g (f i.castSucc) := by
  have hlt : ((f i.castSucc : Fin (n + 1)) : ℕ) < (f i.succ : Fin (n + 1)) := hf Fin.castSucc_lt_succ
  have hc := (f i.succ).isLt
  set a := ((f i.castSucc : Fin (n + 1)) : ℕ) with ha
  set c := ((f i.succ : Fin (n + 1)) : ℕ) with hcdef
  let G : ℕ → ℝ := fun x => g ⟨max a (min c x), by omega⟩
  have h1 : ∑ b ∈ parts f i, (g b.succ - g b.castSucc) = ∑ b : Fin n, (G (b + 1) - G b) := by
    unfold parts
    rw [Finset.sum_filter]
    refine Finset.sum_congr rfl fun b _ => ?_
    have hb := b.isLt
    by_cases hP : f i.castSucc ≤ b.castSucc ∧ b.succ ≤ f i.succ
    · rw [if_pos hP]
      have p1 : a ≤ b := by have := hP.1; rwa [Fin.le_def, Fin.val_castSucc] at this
      have p2 : (b : ℕ) + 1 ≤ c := by have := hP.2; rwa [Fin.le_def, Fin.val_succ] at this
      show _ = g _ - g _
      congr 1
      · congr 1; rw [Fin.ext_iff]; show (b : ℕ) + 1 = max a (min c (b + 1)); omega
      · congr 1; rw [Fin.ext_iff]; show (b : ℕ) = max a (min c b); omega
    · rw [if_neg hP]
      have : (b : ℕ) < a ∨ c ≤ b := by
        by_contra hcon
        apply hP
        rw [Fin.le_def, Fin.le_def, Fin.val_castSucc, Fin.val_succ]
        omega
      show (0:ℝ) = g _ - g _
      rw [eq_comm, sub_eq_zero]
      congr 1; rw [Fin.ext_iff]; show max a (min c (b + 1)) = max a (min c b); omega
  rw [h1, Fin.sum_univ_eq_sum_range (fun b => G (b + 1) - G b), Finset.sum_range_sub]
  show g _ - g _ = _
  congr 1
  · congr 1; rw [Fin.ext_iff]; show max a (min c n) = c; omega
  · congr 1; rw [Fin.ext_iff]; show max a (min c 0) = a; omega

/-! ## Histograms -/

/-- **C121** The histogram table of the coarse bins: every `n` and `n_weighted` is the sum over the fine bins that make up the coarse one. -/
theorem C121_histogram_table (t : EventTable ℝ) {n p : ℕ} (fine : Fin (n + 1) → FV ℝ) (coarse : Fin (p + 1) → FV ℝ) (f : Fin (p + 1) → Fin (n + 1))
    (hf : IncEdges fine) (h : Coarsens fine coarse f) (hp : 0 < p) (hc : t.hasParticle = true → NoClash t.rows) :
    ∃ tabF tabC, createHistogramTable t (List.ofFn fine) = .ok tabF ∧ createHistogramTable t (List.ofFn coarse) = .ok tabC ∧
      ∀ i : Fin p, tabC.cell "n" i = ∑ b ∈ parts f i, tabF.cell "n" b ∧
        tabC.cell "n_weighted" i = ∑ b ∈ parts f i, tabF.cell "n_weighted" b := by
  have hn : 0 < n := by
    have := h.mono.injective
    have := Fintype.card_le_of_injective f this
    simp at this; omega
  obtain ⟨tabF, a1, -, -, -, a2, -⟩ := C05_histogram_table t (List.ofFn fine) hf.increasing (by simp; omega) hc
  obtain ⟨tabC, b1, -, -, -, b2, -⟩ := C05_histogram_table t (List.ofFn coarse) (h.inc hf).increasing (by simp; omega) hc
  refine ⟨tabF, tabC, a1, b1, fun i => ?_⟩
  have hi : (i : ℕ) + 1 < (List.ofFn coarse).length := by simp
  have hw : ∀ w : Event ℝ → ℝ, sumOver t.rows (fun e => InHistBin (List.ofFn coarse) i e.key) w =
      ∑ b ∈ parts f i, sumOver t.rows (fun e => InHistBin (List.ofFn fine) b e.key) w := by
    intro w
    refine (sum_parts t.rows (parts f i) (fun b e => InHistBin (List.ofFn fine) b e.key) (fun e => InHistBin (List.ofFn coarse) i e.key) w ?_ ?_).symm
    · intro r b c hb hc
      exact inBinOf_unique hf ((inBinOf_iff _ _ _).mp hb) ((inBinOf_iff _ _ _).mp hc)
    · intro r
      rw [inBinOf_iff, h.inBin_iff hf]
      simp only [inBinOf_iff]
  rw [(b2 i hi).1, (b2 i hi).2]
  constructor
  · refine (?_ : _ = sumOver t.rows (fun e => InHistBin (List.ofFn coarse) i e.key) (fun _ => 1)).trans ((hw _).trans (Finset.sum_congr rfl fun b _ => ?_))
    · simp [countEvents, sumOver]
    · rw [(a2 b (by simp)).1]; simp [countEvents, sumOver]
  · refine (hw _).trans (Finset.sum_congr rfl fun b _ => ?_)
    rw [(a2 b (by simp)).2]

/-! ## Background -/

/-- **C121** Background: rate × energy width × solid angle of the coarse bins is the sum over the fine bins, with both axes merged. -/
theorem C121_background_2d {n m p q : ℕ} (events : List BackgroundEvent) (energy : Fin (n + 1) → ℝ) (he : StrictMono energy)
    (off : Fin (m + 1) → ℝ) (hoff : StrictMono off) (h0 : 0 ≤ off 0) (hpi : off (Fin.last m) ≤ Real.pi) (tObs : ℝ) (ht : 0 < tObs)
    (energy' : Fin (p + 1) → ℝ) (f : Fin (p + 1) → Fin (n + 1)) (hE : Coarsens energy energy' f)
    (off' : Fin (q + 1) → ℝ) (g : Fin (q + 1) → Fin (m + 1)) (hO : Coarsens off off' g) (hp : 0 < p) (hq : 0 < q) :
    ∃ (d : Fin n → Fin m → ℝ) (d' : Fin p → Fin q → ℝ), background2d events (finEdges energy) off tObs = .ok (fun i j => .fin (d i j)) ∧
      background2d events (finEdges energy') off' tObs = .ok (fun i j => .fin (d' i j)) ∧
      ∀ i j, d' i j * (energy' i.succ - energy' i.castSucc) * (2 * Real.pi * (Real.cos (off' j.castSucc) - Real.cos (off' j.succ))) =
        ∑ b ∈ parts f i, ∑ c ∈ parts g j,
          d b c * (energy b.succ - energy b.castSucc) * (2 * Real.pi * (Real.cos (off c.castSucc) - Real.cos (off c.succ))) := by
  have pos : ∀ {n p : ℕ} {f : Fin (p + 1) → Fin (n + 1)}, StrictMono f → 0 < p → 0 < n := by
    intro n p f hf hp
    have := Fintype.card_le_of_injective f hf.injective
    simp at this; omega
  have h0' : 0 ≤ off' 0 := by rw [hO.edge]; exact h0.trans (hoff.monotone (Fin.zero_le _))
  have hpi' : off' (Fin.last q) ≤ Real.pi := by rw [hO.edge, hO.last]; exact hpi
  obtain ⟨d, a1, a2, -⟩ := C42_background_2d events energy he off hoff h0 hpi tObs ht (pos hE.mono hp) (pos hO.mono hq)
  obtain ⟨d', b1, b2, -⟩ := C42_background_2d events energy' (hE.strictMono he) off' (hO.strictMono hoff) h0' hpi' tObs ht hp hq
  refine ⟨d, d', a1, b1, fun i j => ?_⟩
  have hEE : Coarsens (finEdges energy) (finEdges energy') f := hE.map FV.fin
  have hOO : Coarsens (finEdges off) (finEdges off') g := hO.map FV.fin
  have iE : IncEdges (finEdges energy) := incEdges_fin he.monotone
  have iO : IncEdges (finEdges off) := incEdges_fin hoff.monotone
  apply mul_right_cancel₀ ht.ne'
  rw [b2 i j, Finset.sum_mul]
  simp only [Finset.sum_mul, a2]
  rw [← Finset.sum_product']
  refine (sum_parts events (parts f i ×ˢ parts g j) (fun bc e => InBinOf (finEdges energy) bc.1 e.energy ∧ InBinOf (finEdges off) bc.2 e.offset) _ _ ?_ ?_).symm
  · rintro r ⟨b, c⟩ ⟨b', c'⟩ h1 h2
    exact Prod.ext (inBinOf_unique iE h1.1 h2.1) (inBinOf_unique iO h1.2 h2.2)
  · intro r
    rw [hEE.inBin_iff iE, hOO.inBin_iff iO]
    constructor
    · rintro ⟨⟨b, hb, h1⟩, c, hc, h2⟩
      exact ⟨(b, c), Finset.mem_product.mpr ⟨hb, hc⟩, h1, h2⟩
    · rintro ⟨⟨b, c⟩, hbc, h1, h2⟩
      exact ⟨⟨b, (Finset.mem_product.mp hbc).1, h1⟩, c, (Finset.mem_product.mp hbc).2, h2⟩

/-! ## Effective area -/

/-- **C121** Simulated showers add up over merged bins, and so do effective area × simulated showers: the effective area of a coarse bin is the
mean of the effective areas of the fine ones, weighted with the showers simulated in them. -/
theorem C121_effective_area_fov (events : List TrueEvent) (s : Info) (hv : Valid s) (hd : Diffuse s) (hR : 0 < s.maxImpact) {n m p q : ℕ}
    (bins : Fin (n + 1) → FV ℝ) (hb : EnergyEdges s bins) (fov : Fin (m + 1) → ℝ) (hf : Monotone fov)
    (bins' : Fin (p + 1) → FV ℝ) (hb' : EnergyEdges s bins') (f : Fin (p + 1) → Fin (n + 1)) (hE : Coarsens bins bins' f) (hp : 0 < p)
    (fov' : Fin (q + 1) → ℝ) (g : Fin (q + 1) → Fin (m + 1)) (hO : Coarsens fov fov' g) :
    ∃ (N : Fin n → Fin m → ℝ) (N' : Fin p → Fin q → ℝ),
      nShowersPerEnergyAndFov s bins fov = .ok (fun i j => .fin (N i j)) ∧
      nShowersPerEnergyAndFov s bins' fov' = .ok (fun i j => .fin (N' i j)) ∧
      (∀ i j, N' i j = ∑ b ∈ parts f i, ∑ c ∈ parts g j, N b c) ∧
      ((∀ i j, N i j ≠ 0) → ∃ (A : Fin n → Fin m → ℝ) (A' : Fin p → Fin q → ℝ),
        effectiveAreaPerEnergyAndFov events s bins fov = .ok (fun i j => .fin (A i j)) ∧
        effectiveAreaPerEnergyAndFov events s bins' fov' = .ok (fun i j => .fin (A' i j)) ∧
        ∀ i j, A' i j * N' i j = ∑ b ∈ parts f i, ∑ c ∈ parts g j, A b c * N b c) := by
  have hn : 0 < n := by
    have := Fintype.card_le_of_injective f hE.mono.injective
    simp at this; omega
  have iE := incEdges_of_bins hn hb.isBin
  have iO : IncEdges (finEdges fov) := incEdges_fin hf
  have hOO : Coarsens (finEdges fov) (finEdges fov') g := hO.map FV.fin
  have hf' : Monotone fov' := hO.monotone hf
  -- showers
  have key : ∀ {n m : ℕ} (bins : Fin (n + 1) → FV ℝ) (_ : EnergyEdges s bins) (fov : Fin (m + 1) → ℝ) (_ : Monotone fov),
      ∃ N : Fin n → Fin m → ℝ, nShowersPerEnergyAndFov s bins fov = .ok (fun i j => .fin (N i j)) ∧
        ∀ i j, N i j = expectedShowers s (bins i.castSucc) (bins i.succ) * viewconeFraction s (fov j.castSucc) (fov j.succ) := by
    intro n m bins hb fov hf
    obtain ⟨v, h1, h2⟩ := C30_factorize s hv.showers bins fov _ _ (fun i => C26_expected_number s hv bins i (hb.isBin i) (hb.notAll i))
      (C29_fraction s hd fov (fun i => hf (Fin.castSucc_le_succ i)))
    refine ⟨v, h1, fun i j => ?_⟩
    apply mul_right_cancel₀ hv.showers.ne'
    rw [h2 i j]; ring
  obtain ⟨N, a1, a2⟩ := key bins hb fov hf
  obtain ⟨N', b1, b2⟩ := key bins' hb' fov' hf'
  have hEsum : ∀ i, expectedShowers s (bins' i.castSucc) (bins' i.succ) = ∑ b ∈ parts f i, expectedShowers s (bins b.castSucc) (bins b.succ) := by
    intro i
    rw [expectedShowers_eq hv (hb'.isBin i), hE.edge, hE.edge]
    simp only [expectedShowers_eq hv (hb.isBin _), ← Finset.mul_sum]
    rw [sum_parts_sub hE.mono i (fun k => cdf s (clip s (bins k)))]
  have hFsum : ∀ j, viewconeFraction s (fov' j.castSucc) (fov' j.succ) = ∑ c ∈ parts g j, viewconeFraction s (fov c.castSucc) (fov c.succ) := by
    intro j
    have hadd := (C29_additive s hd).2.2.1
    have hz : ∀ k : Fin m, viewconeFraction s (fov k.castSucc) (fov k.succ) = viewconeFraction s (fov 0) (fov k.succ) - viewconeFraction s (fov 0) (fov k.castSucc) := by
      intro k
      rw [hadd (fov 0) (fov k.castSucc) (fov k.succ) (hf (Fin.zero_le _)) (hf (Fin.castSucc_le_succ k))]; ring
    simp only [hz]
    rw [sum_parts_sub hO.mono j (fun k => viewconeFraction s (fov 0) (fov k)), hO.edge, hO.edge]
    rw [hadd (fov 0) (fov (g j.castSucc)) (fov (g j.succ)) (hf (Fin.zero_le _)) (hf (hO.mono.monotone (Fin.castSucc_le_succ j)))]; ring
  have hsum : ∀ i j, N' i j = ∑ b ∈ parts f i, ∑ c ∈ parts g j, N b c := by
    intro i j
    rw [b2, hEsum, hFsum, Finset.sum_mul_sum]
    simp only [a2]
  refine ⟨N, N', a1, b1, hsum, fun hpos => ?_⟩
  have hnn : ∀ i j, 0 < N i j := by
    intro i j
    refine lt_of_le_of_ne ?_ (hpos i j).symm
    rw [a2]
    obtain ⟨x, hx, hx0, -⟩ := C27_nonneg s hv bins i (hb.isBin i) (hb.notAll i)
    rw [C26_expected_number s hv bins i (hb.isBin i) (hb.notAll i)] at hx
    cases hx
    exact mul_nonneg hx0 ((C29_additive s hd).1 _ _ (hf (Fin.castSucc_le_succ j))).1
  have hpos' : ∀ i j, N' i j ≠ 0 := by
    intro i j
    rw [hsum]
    refine (Finset.sum_pos (fun b _ => Finset.sum_pos (fun c _ => hnn b c) (parts_nonempty hO.mono j)) (parts_nonempty hE.mono i)).ne'
  have hA := areaFov_eq events s bins iE fov hf N a1 hpos
  have hA' := areaFov_eq events s bins' (hE.inc iE) fov' hf' N' b1 hpos'
  refine ⟨_, _, hA, hA', fun i j => ?_⟩
  have e1 : ∀ (x y z : ℝ), y ≠ 0 → x / y * z * y = x * z := by intro x y z hy; field_simp
  rw [e1 _ _ _ (hpos' i j)]
  simp only [e1 _ _ _ (hpos _ _), ← Finset.sum_mul]
  congr 1
  rw [← Finset.sum_product']
  refine (sum_parts_number events (parts f i ×ˢ parts g j) (fun bc e => InBinOf bins bc.1 e.energy ∧ InBinOf (finEdges fov) bc.2 e.offset) _ ?_ ?_).symm
  · rintro r ⟨b, c⟩ ⟨b', c'⟩ h1 h2
    exact Prod.ext (inBinOf_unique iE h1.1 h2.1) (inBinOf_unique iO h1.2 h2.2)
  · intro r
    rw [hE.inBin_iff iE, hOO.inBin_iff iO]
    constructor
    · rintro ⟨⟨b, hb, h1⟩, c, hc, h2⟩
      exact ⟨(b, c), Finset.mem_product.mpr ⟨hb, hc⟩, h1, h2⟩
    · rintro ⟨⟨b, c⟩, hbc, h1, h2⟩
      exact ⟨⟨b, (Finset.mem_product.mp hbc).1, h1⟩, c, (Finset.mem_product.mp hbc).2, h2⟩

/-! ## Densities -/

/-- counts in the cells of three axes, merged -/
theorem merge_counts {n m k p q r : ℕ} (events : List RecoEvent) (x y z : RecoEvent → FV ℝ)
    {e1 : Fin (n + 1) → FV ℝ} (h1 : IncEdges e1) {e1' : Fin (p + 1) → FV ℝ} {f : Fin (p + 1) → Fin (n + 1)} (c1 : Coarsens e1 e1' f)
    {e2 : Fin (m + 1) → FV ℝ} (h2 : IncEdges e2) {e2' : Fin (q + 1) → FV ℝ} {g : Fin (q + 1) → Fin (m + 1)} (c2 : Coarsens e2 e2' g)
    {e3 : Fin (k + 1) → FV ℝ} (h3 : IncEdges e3) {e3' : Fin (r + 1) → FV ℝ} {h : Fin (r + 1) → Fin (k + 1)} (c3 : Coarsens e3 e3' h)
    (i : Fin p) (a : Fin q) (j : Fin r) :
    (numberWhere events (fun e => (InBinOf e1' i (x e) ∧ InBinOf e3' j (z e)) ∧ InBinOf e2' a (y e)) : ℝ) =
      ∑ b ∈ parts f i, ∑ c ∈ parts g a, ∑ d ∈ parts h j,
        (numberWhere events (fun e => (InBinOf e1 b (x e) ∧ InBinOf e3 d (z e)) ∧ InBinOf e2 c (y e)) : ℝ) := by
  simp only [← Finset.sum_product']
  refine (sum_parts_number events (parts f i ×ˢ parts g a ×ˢ parts h j)
    (fun bcd e => (InBinOf e1 bcd.1 (x e) ∧ InBinOf e3 bcd.2.2 (z e)) ∧ InBinOf e2 bcd.2.1 (y e)) _ ?_ ?_).symm.trans ?_
  · rintro r ⟨b, c, d⟩ ⟨b', c', d'⟩ u v
    exact Prod.ext (inBinOf_unique h1 u.1.1 v.1.1) (Prod.ext (inBinOf_unique h2 u.2 v.2) (inBinOf_unique h3 u.1.2 v.1.2))
  · intro r
    rw [c1.inBin_iff h1, c2.inBin_iff h2, c3.inBin_iff h3]
    constructor
    · rintro ⟨⟨⟨b, hb, u⟩, d, hd, w⟩, c, hc, v⟩
      exact ⟨(b, c, d), Finset.mem_product.mpr ⟨hb, Finset.mem_product.mpr ⟨hc, hd⟩⟩, ⟨u, w⟩, v⟩
    · rintro ⟨⟨b, c, d⟩, hbc, ⟨u, w⟩, v⟩
      obtain ⟨hb, hcd⟩ := Finset.mem_product.mp hbc
      obtain ⟨hc, hd⟩ := Finset.mem_product.mp hcd
      exact ⟨⟨⟨b, hb, u⟩, d, hd, w⟩, c, hc, v⟩
  · rw [Finset.sum_product]

/-- **C121** Energy dispersion with any of its axes merged: entry × width of the migration bin × number of events (in the true energy and offset bin,
with a migration inside the migration edges) adds up. If only migration bins are merged and the first edge is kept, entry × width adds up. -/
theorem C121_dispersion {n m k p q r : ℕ} (big : ℝ) (events : List RecoEvent) (trueBins : Fin (n + 1) → FV ℝ) (ht : IncEdges trueBins)
    (fovBins : Fin (k + 1) → FV ℝ) (hfov : IncEdges fovBins) (mig : Fin (m + 1) → ℝ) (hmig : StrictMono mig)
    (trueBins' : Fin (p + 1) → FV ℝ) (f : Fin (p + 1) → Fin (n + 1)) (c1 : Coarsens trueBins trueBins' f)
    (mig' : Fin (q + 1) → ℝ) (g : Fin (q + 1) → Fin (m + 1)) (c2 : Coarsens mig mig' g)
    (fovBins' : Fin (r + 1) → FV ℝ) (h : Fin (r + 1) → Fin (k + 1)) (c3 : Coarsens fovBins fovBins' h) (hq : 0 < q) :
    (∃ (D : Fin n → Fin m → Fin k → ℝ) (D' : Fin p → Fin q → Fin r → ℝ),
      energyDispersion big events trueBins fovBins (finEdges mig) = .ok (fun i a j => .fin (D i a j)) ∧
      energyDispersion big events trueBins' fovBins' (finEdges mig') = .ok (fun i a j => .fin (D' i a j)) ∧
      ∀ i a j, D' i a j * (mig' a.succ - mig' a.castSucc) *
          (numberWhere events (fun e => (InBinOf trueBins' i e.trueEnergy ∧ InBinOf fovBins' j e.offset) ∧ InRangeOf (finEdges mig') (e.recoEnergy / e.trueEnergy)) : ℝ) =
        ∑ b ∈ parts f i, ∑ c ∈ parts g a, ∑ d ∈ parts h j, D b c d * (mig c.succ - mig c.castSucc) *
          (numberWhere events (fun e => (InBinOf trueBins b e.trueEnergy ∧ InBinOf fovBins d e.offset) ∧ InRangeOf (finEdges mig) (e.recoEnergy / e.trueEnergy)) : ℝ)) ∧
    (g 0 = 0 → ∃ (D : Fin n → Fin m → Fin k → ℝ) (D' : Fin n → Fin q → Fin k → ℝ),
      energyDispersion big events trueBins fovBins (finEdges mig) = .ok (fun i a j => .fin (D i a j)) ∧
      energyDispersion big events trueBins fovBins (finEdges mig') = .ok (fun i a j => .fin (D' i a j)) ∧
      ∀ i a j, D' i a j * (mig' a.succ - mig' a.castSucc) = ∑ c ∈ parts g a, D i c j * (mig c.succ - mig c.castSucc)) := by
  have hm : 0 < m := by
    have := Fintype.card_le_of_injective g c2.mono.injective
    simp at this; omega
  have key : ∀ {n m k : ℕ} (trueBins : Fin (n + 1) → FV ℝ) (_ : IncEdges trueBins) (fovBins : Fin (k + 1) → FV ℝ) (_ : IncEdges fovBins)
      (mig : Fin (m + 1) → ℝ) (_ : StrictMono mig) (_ : 0 < m), ∃ D : Fin n → Fin m → Fin k → ℝ,
      energyDispersion big events trueBins fovBins (finEdges mig) = .ok (fun i a j => .fin (D i a j)) ∧
      (∀ i a j, D i a j * (mig a.succ - mig a.castSucc) *
        (numberWhere events (fun e => (InBinOf trueBins i e.trueEnergy ∧ InBinOf fovBins j e.offset) ∧ InRangeOf (finEdges mig) (e.recoEnergy / e.trueEnergy)) : ℝ) =
        numberWhere events (fun e => (InBinOf trueBins i e.trueEnergy ∧ InBinOf fovBins j e.offset) ∧ InBinOf (finEdges mig) a (e.recoEnergy / e.trueEnergy))) ∧
      ∀ i j, numberWhere events (fun e => (InBinOf trueBins i e.trueEnergy ∧ InBinOf fovBins j e.offset) ∧ InRangeOf (finEdges mig) (e.recoEnergy / e.trueEnergy)) = 0 →
        ∀ a, D i a j = 0 := by
    intro n m k trueBins ht fovBins hf mig hmig hm
    have hmE : IncEdges (finEdges mig) := incEdges_fin hmig.monotone
    obtain ⟨D, h1, -, h3⟩ := C39_energy_dispersion big events trueBins ht fovBins hf mig hmig hm
    refine ⟨D, h1, fun i a j => ?_, fun i j h0 => (h3 i j).2 (fun ⟨e, he, hc⟩ => (numberWhere_eq_zero events).mp h0 e he hc)⟩
    by_cases h : ∃ e ∈ events, (InBinOf trueBins i e.trueEnergy ∧ InBinOf fovBins j e.offset) ∧ InRangeOf (finEdges mig) (e.recoEnergy / e.trueEnergy)
    · exact ((h3 i j).1 h).2 a
    · rw [(h3 i j).2 h a, zero_mul, zero_mul]
      rw [(numberWhere_eq_zero events).mpr (fun e he hc => h ⟨e, he, hc.1, (inBinOf_range hmE hm _).mp ⟨a, hc.2⟩⟩), Nat.cast_zero]
  have hmE : IncEdges (finEdges mig) := incEdges_fin hmig.monotone
  have c2' : Coarsens (finEdges mig) (finEdges mig') g := c2.map FV.fin
  obtain ⟨D, a1, a2, a3⟩ := key trueBins ht fovBins hfov mig hmig hm
  constructor
  · obtain ⟨D', b1, b2, -⟩ := key trueBins' (c1.inc ht) fovBins' (c3.inc hfov) mig' (c2.strictMono hmig) hq
    refine ⟨D, D', a1, b1, fun i a j => ?_⟩
    rw [b2]
    simp only [a2]
    exact merge_counts events (fun e => e.trueEnergy) (fun e => e.recoEnergy / e.trueEnergy) (fun e => e.offset) ht c1 hmE c2' hfov c3 i a j
  · intro hg
    obtain ⟨D', b1, b2, b3⟩ := key trueBins ht fovBins hfov mig' (c2.strictMono hmig) hq
    refine ⟨D, D', a1, b1, fun i a j => ?_⟩
    have hrange : ∀ e : RecoEvent, InRangeOf (finEdges mig') (e.recoEnergy / e.trueEnergy) ↔ InRangeOf (finEdges mig) (e.recoEnergy / e.trueEnergy) := by
      intro e
      unfold InRangeOf finEdges
      rw [c2.edge, c2.edge, hg, c2.last]
    have hNN : numberWhere events (fun e => (InBinOf trueBins i e.trueEnergy ∧ InBinOf fovBins j e.offset) ∧ InRangeOf (finEdges mig') (e.recoEnergy / e.trueEnergy)) =
        numberWhere events (fun e => (InBinOf trueBins i e.trueEnergy ∧ InBinOf fovBins j e.offset) ∧ InRangeOf (finEdges mig) (e.recoEnergy / e.trueEnergy)) :=
      numberWhere_congr events fun e _ => and_congr_right fun _ => hrange e
    have hb := b2 i a j
    rw [hNN] at hb
    by_cases h0 : numberWhere events (fun e => (InBinOf trueBins i e.trueEnergy ∧ InBinOf fovBins j e.offset) ∧ InRangeOf (finEdges mig) (e.recoEnergy / e.trueEnergy)) = 0
    · rw [b3 i j (hNN.trans h0) a, zero_mul, Finset.sum_eq_zero]
      intro c _
      rw [a3 i j h0 c, zero_mul]
    · apply mul_right_cancel₀ (Nat.cast_ne_zero.mpr h0 : (_ : ℝ) ≠ 0)
      rw [hb, Finset.sum_mul]
      simp only [a2]
      have := merge_counts events (fun e => e.trueEnergy) (fun e => e.recoEnergy / e.trueEnergy) (fun e => e.offset) ht (Coarsens.refl trueBins) hmE c2' hfov
        (Coarsens.refl fovBins) i a j
      simpa only [parts_id, Finset.sum_singleton] using this

/-- **C121** Point spread function with any of its axes merged: entry × solid angle of the ring × number of events adds up. If only source offset
bins are merged and the first edge is kept, entry × solid angle adds up. -/
theorem C121_psf {n m k p q r : ℕ} (big : ℝ) (events : List RecoEvent) (trueBins : Fin (n + 1) → FV ℝ) (ht : IncEdges trueBins)
    (fovBins : Fin (k + 1) → FV ℝ) (hfov : IncEdges fovBins) (off : Fin (m + 1) → ℝ) (hoff : StrictMono off) (h0 : 0 ≤ off 0) (hpi : off (Fin.last m) ≤ Real.pi)
    (trueBins' : Fin (p + 1) → FV ℝ) (f : Fin (p + 1) → Fin (n + 1)) (c1 : Coarsens trueBins trueBins' f)
    (off' : Fin (q + 1) → ℝ) (g : Fin (q + 1) → Fin (m + 1)) (c2 : Coarsens off off' g)
    (fovBins' : Fin (r + 1) → FV ℝ) (h : Fin (r + 1) → Fin (k + 1)) (c3 : Coarsens fovBins fovBins' h) (hq : 0 < q) :
    let Ω := fun lo hi : ℝ => 2 * Real.pi * (Real.cos lo - Real.cos hi)
    (∃ (D : Fin n → Fin k → Fin m → ℝ) (D' : Fin p → Fin r → Fin q → ℝ),
      psfTable big events trueBins off fovBins = .ok (fun i j a => .fin (D i j a)) ∧
      psfTable big events trueBins' off' fovBins' = .ok (fun i j a => .fin (D' i j a)) ∧
      ∀ i a j, D' i j a * Ω (off' a.castSucc) (off' a.succ) *
          (numberWhere events (fun e => (InBinOf trueBins' i e.trueEnergy ∧ InBinOf fovBins' j e.offset) ∧ InRangeOf (finEdges off') e.theta) : ℝ) =
        ∑ b ∈ parts f i, ∑ c ∈ parts g a, ∑ d ∈ parts h j, D b d c * Ω (off c.castSucc) (off c.succ) *
          (numberWhere events (fun e => (InBinOf trueBins b e.trueEnergy ∧ InBinOf fovBins d e.offset) ∧ InRangeOf (finEdges off) e.theta) : ℝ)) ∧
    (g 0 = 0 → ∃ (D : Fin n → Fin k → Fin m → ℝ) (D' : Fin n → Fin k → Fin q → ℝ),
      psfTable big events trueBins off fovBins = .ok (fun i j a => .fin (D i j a)) ∧
      psfTable big events trueBins off' fovBins = .ok (fun i j a => .fin (D' i j a)) ∧
      ∀ i a j, D' i j a * Ω (off' a.castSucc) (off' a.succ) = ∑ c ∈ parts g a, D i j c * Ω (off c.castSucc) (off c.succ)) := by
  intro Ω
  have hm : 0 < m := by
    have := Fintype.card_le_of_injective g c2.mono.injective
    simp at this; omega
  have key : ∀ {n m k : ℕ} (trueBins : Fin (n + 1) → FV ℝ) (_ : IncEdges trueBins) (fovBins : Fin (k + 1) → FV ℝ) (_ : IncEdges fovBins)
      (off : Fin (m + 1) → ℝ) (_ : StrictMono off) (_ : 0 ≤ off 0) (_ : off (Fin.last m) ≤ Real.pi) (_ : 0 < m), ∃ D : Fin n → Fin k → Fin m → ℝ,
      psfTable big events trueBins off fovBins = .ok (fun i j a => .fin (D i j a)) ∧
      (∀ i a j, D i j a * Ω (off a.castSucc) (off a.succ) *
        (numberWhere events (fun e => (InBinOf trueBins i e.trueEnergy ∧ InBinOf fovBins j e.offset) ∧ InRangeOf (finEdges off) e.theta) : ℝ) =
        numberWhere events (fun e => (InBinOf trueBins i e.trueEnergy ∧ InBinOf fovBins j e.offset) ∧ InBinOf (finEdges off) a e.theta)) ∧
      ∀ i j, numberWhere events (fun e => (InBinOf trueBins i e.trueEnergy ∧ InBinOf fovBins j e.offset) ∧ InRangeOf (finEdges off) e.theta) = 0 →
        ∀ a, D i j a = 0 := by
    intro n m k trueBins ht fovBins hf off hoff h0 hpi hm
    have hmE : IncEdges (finEdges off) := incEdges_fin hoff.monotone
    obtain ⟨D, h1, -, h3⟩ := C41_psf_table big events trueBins ht off hoff h0 hpi fovBins hf hm
    refine ⟨D, h1, fun i a j => ?_, fun i j h0 => (h3 i j).2 (fun ⟨e, he, hc⟩ => (numberWhere_eq_zero events).mp h0 e he hc)⟩
    by_cases h : ∃ e ∈ events, (InBinOf trueBins i e.trueEnergy ∧ InBinOf fovBins j e.offset) ∧ InRangeOf (finEdges off) e.theta
    · exact ((h3 i j).1 h).2 a
    · rw [(h3 i j).2 h a, zero_mul, zero_mul]
      rw [(numberWhere_eq_zero events).mpr (fun e he hc => h ⟨e, he, hc.1, (inBinOf_range hmE hm _).mp ⟨a, hc.2⟩⟩), Nat.cast_zero]
  have hmE : IncEdges (finEdges off) := incEdges_fin hoff.monotone
  have c2' : Coarsens (finEdges off) (finEdges off') g := c2.map FV.fin
  have h0' : 0 ≤ off' 0 := by rw [c2.edge]; exact h0.trans (hoff.monotone (Fin.zero_le _))
  have hpi' : off' (Fin.last q) ≤ Real.pi := by rw [c2.edge, c2.last]; exact hpi
  obtain ⟨D, a1, a2, a3⟩ := key trueBins ht fovBins hfov off hoff h0 hpi hm
  constructor
  · obtain ⟨D', b1, b2, -⟩ := key trueBins' (c1.inc ht) fovBins' (c3.inc hfov) off' (c2.strictMono hoff) h0' hpi' hq
    refine ⟨D, D', a1, b1, fun i a j => ?_⟩
    rw [b2]
    simp only [a2]
    exact merge_counts events (fun e => e.trueEnergy) (fun e => e.theta) (fun e => e.offset) ht c1 hmE c2' hfov c3 i a j
  · intro hg
    obtain ⟨D', b1, b2, b3⟩ := key trueBins ht fovBins hfov off' (c2.strictMono hoff) h0' hpi' hq
    refine ⟨D, D', a1, b1, fun i a j => ?_⟩
    have hrange : ∀ e : RecoEvent, InRangeOf (finEdges off') e.theta ↔ InRangeOf (finEdges off) e.theta := by
      intro e
      unfold InRangeOf finEdges
      rw [c2.edge, c2.edge, hg, c2.last]
    have hNN : numberWhere events (fun e => (InBinOf trueBins i e.trueEnergy ∧ InBinOf fovBins j e.offset) ∧ InRangeOf (finEdges off') e.theta) =
        numberWhere events (fun e => (InBinOf trueBins i e.trueEnergy ∧ InBinOf fovBins j e.offset) ∧ InRangeOf (finEdges off) e.theta) :=
      numberWhere_congr events fun e _ => and_congr_right fun _ => hrange e
    have hb := b2 i a j
    rw [hNN] at hb
    by_cases hz : numberWhere events (fun e => (InBinOf trueBins i e.trueEnergy ∧ InBinOf fovBins j e.offset) ∧ InRangeOf (finEdges off) e.theta) = 0
    · rw [b3 i j (hNN.trans hz) a, zero_mul, Finset.sum_eq_zero]
      intro c _
      rw [a3 i j hz c, zero_mul]
    · apply mul_right_cancel₀ (Nat.cast_ne_zero.mpr hz : (_ : ℝ) ≠ 0)
      rw [hb, Finset.sum_mul]
      simp only [a2]
      have := merge_counts events (fun e => e.trueEnergy) (fun e => e.theta) (fun e => e.offset) ht (Coarsens.refl trueBins) hmE c2' hfov
        (Coarsens.refl fovBins) i a j
      simpa only [parts_id, Finset.sum_singleton] using this

/-! ## Satisfiability: edges 0, 1, 2, 5 merged to 0, 2, 5 -/

example : Coarsens (![0, 1, 2, 5] : Fin 4 → ℝ) ![0, 2, 5] ![0, 2, 3] ∧ parts (![0, 2, 3] : Fin 3 → Fin 4) 0 = {0, 1} ∧
    parts (![0, 2, 3] : Fin 3 → Fin 4) 1 = {2} ∧ (![0, 2, 3] : Fin 3 → Fin 4) 0 = 0 := by
  refine ⟨⟨?_, rfl, ?_⟩, by decide, by decide, rfl⟩
  · intro i j hij; revert i j; decide
  · intro i; fin_cases i <;> rfl

end Pyirf.Pipeline
