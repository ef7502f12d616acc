import Verif.CutOpt.NamesLemmas
import Verif.Cuts.PercentileProps

/-!
# Property C79: the optimizers succeed on well-formed input
-/
set_option linter.unusedSectionVars false
set_option linter.unusedSimpArgs false

namespace Pyirf.CutOpt
open Pyirf Pyirf.Binning Pyirf.Cuts Pyirf.Sensitivity Pyirf.Utils

/-! ## Specification -/

/-- Well-formed input of an optimization: strictly increasing energy bin edges of which the last may be +inf, at least one signal event, no particle type
called "weighted", non-negative weights, positive `alpha`, an offset range `lo < hi` within a half circle, and a root finder that fails only
with ValueError or RuntimeError. -/
structure WellFormed (c : Ctx) (E : List (FV ℝ)) : Prop where
  /-- bins -/
  bins : c.bins = E
  /-- increasing -/
  incr : Np.Increasing1 E
  /-- at least one bin -/
  two : 2 ≤ E.length
  /-- signal events -/
  signal : c.signal.rows ≠ []
  /-- particle types -/
  sigParticle : NoWeighted c.signal
  /-- particle types -/
  bgParticle : NoWeighted c.background
  /-- weights -/
  sigWeight : ∀ e ∈ c.signal.rows, 0 ≤ e.weight
  /-- weights -/
  bgWeight : ∀ e ∈ c.background.rows, 0 ≤ e.weight
  /-- `alpha` -/
  alpha : ∃ a : ℝ, 0 < a ∧ c.alpha = .fin a
  /-- offset range -/
  offsets : ∃ lo hi : ℝ, 0 ≤ lo ∧ lo < hi ∧ hi ≤ Real.pi ∧ c.offMin = .fin lo ∧ c.offMax = .fin hi
  /-- `brentq` -/
  brentq : ∀ f a b e, c.brentq f a b = .error e → e = .runtimeError ∨ e = .valueError

/-- The event passes the gh cut of its energy bin. -/
def PassesGh (E : List (FV ℝ)) (op : FV ℝ → FV ℝ → Bool) (cuts : List (FV ℝ)) (e : Ev) : Prop :=
  ∃ i x, InBin E i e.energy ∧ cuts[i]? = some x ∧ op e.gh x = true

/-- The particle types of the background events with an offset in the ring that satisfy `P`. -/
def leftTypes (c : Ctx) (P : Ev → Prop) : Set String :=
  {p | ∃ e ∈ c.background.rows, P e ∧ FV.ge e.offset c.offMin = true ∧ FV.lt e.offset c.offMax = true ∧ e.particle = p}

/-- `cuts` are the per-bin gh cuts that `optimize_gh_cut` scans for the `j`-th efficiency. -/
def GhCuts (c : Ctx) (ghEff : List ℝ) (op : FV ℝ → FV ℝ → Bool) (j : ℕ) (cuts : List (FV ℝ)) : Prop :=
  ∃ setup grid, ghScanSetup c ghEff op = .ok setup ∧
    percentileCuts (c.signal.rows.map fun e => (e.gh, e.energy)) c.bins setup.2 setup.1 none none 10 = .ok grid ∧
    cuts = (cutColumn grid j).cut

/-- If there is a particle type column: all cuts that `optimize_gh_cut` scans leave the same background particle types in the ring. -/
def SameTypesGh (c : Ctx) (ghEff : List ℝ) (op : FV ℝ → FV ℝ → Bool) : Prop :=
  c.background.hasParticle = true → ∀ j j' cuts cuts', j < ghEff.length → j' < ghEff.length → GhCuts c ghEff op j cuts →
    GhCuts c ghEff op j' cuts' → leftTypes c (PassesGh c.bins op cuts) = leftTypes c (PassesGh c.bins op cuts')

/-- `m` is the `mi`-th multiplicity cut and `gh` are the per-bin gh cuts that `optimize_cuts` scans for it and the `gi`-th efficiency. -/
def MultGhCuts (c : Ctx) (g : Grid) (mi gi : ℕ) (m : FV ℝ) (gh : List (FV ℝ)) : Prop :=
  ∃ fill ghT, npMax (c.signal.rows.map Ev.gh) = .ok fill ∧ g.mults[mi]? = some m ∧ ghGrid c g fill m = .ok ghT ∧
    gh = (cutColumn ghT gi).cut

/-- If there is a particle type column: all combinations that `optimize_cuts` scans leave the same background particle types in the ring. -/
def SameTypes (c : Ctx) (g : Grid) : Prop :=
  c.background.hasParticle = true → ∀ mi gi m gh mi' gi' m' gh', gi < g.ghEff.length → gi' < g.ghEff.length →
    MultGhCuts c g mi gi m gh → MultGhCuts c g mi' gi' m' gh' →
    leftTypes c (fun e => PassesGh c.bins FV.ge gh e ∧ FV.ge e.mult m = true) =
      leftTypes c (fun e => PassesGh c.bins FV.ge gh' e ∧ FV.ge e.mult m' = true)

/-! ## Lemmas -/

/-- NaN or not negative -/
def NonNeg (x : FV ℝ) : Prop := FV.lt x (.fin 0) = false

theorem rel_total {brentq : RootFn} {sig : SigFn} {nOn nOff alpha : FV ℝ} {th : Thresholds} (h1 : NonNeg nOn) (h2 : NonNeg nOff)
    (hb : ∀ f a b e, brentq f a b = .error e → e = .runtimeError ∨ e = .valueError) :
    ∃ r, relativeSensitivity1 brentq sig nOn nOff alpha th = .ok r := by
  unfold NonNeg at h1 h2
  unfold relativeSensitivity1
  rw [h1, h2]
  split
  · exact ⟨_, rfl⟩
  · simp only [Bool.or_self, Bool.false_eq_true, if_false]
    split
    · exact ⟨_, rfl⟩
    · split
      · exact ⟨_, rfl⟩
      · rename_i e he
        rw [if_pos (hb _ _ _ e he)]
        exact ⟨_, rfl⟩

theorem sum_nonneg' (l : List Ev) (hw : Bool) (h : ∀ e ∈ l, 0 ≤ e.weight) : 0 ≤ (l.map (evWeight hw)).sum := by
  apply List.sum_nonneg
  intro x hx
  obtain ⟨e, he, rfl⟩ := List.mem_map.mp hx
  unfold evWeight
  split
  · exact h e he
  · exact zero_le_one

theorem bgEst_nonneg {c : Ctx} {E : List (FV ℝ)} (w : WellFormed c E) (sel : List Bool) (nodes : List (FV ℝ × FV ℝ)) (i : ℕ) (x : FV ℝ) :
    bgEst c E sel nodes i x = .nan ∨ ∃ y, 0 ≤ y ∧ bgEst c E sel nodes i x = .fin y := by
  obtain ⟨a, ha, hal⟩ := w.alpha
  obtain ⟨lo, hi, h0, h1, h2, hlo, hhi⟩ := w.offsets
  unfold bgEst
  rw [hal, hlo, hhi]
  have hs : 0 ≤ bgSum c E sel i := by
    unfold bgSum
    apply sum_nonneg'
    intro e he
    exact w.bgWeight e (mem_select (List.mem_filter.mp he).1)
  have hr : 0 < coneSolidAngle hi - coneSolidAngle lo := by
    unfold coneSolidAngle
    have := Real.strictAntiOn_cos ⟨h0, by linarith⟩ ⟨by linarith, h2⟩ h1
    have hp := Real.pi_pos
    nlinarith
  simp only [coneSolidAngleF, FV.fin_sub_fin]
  cases hv : Np.interp nodes x with
  | fin v =>
    right
    simp only [coneSolidAngleF]
    rw [FV.fin_div_fin _ _ hr.ne', FV.fin_mul_fin, FV.fin_div_fin _ _ ha.ne']
    refine ⟨_, ?_, rfl⟩
    apply div_nonneg _ ha.le
    apply mul_nonneg hs
    apply div_nonneg _ hr.le
    unfold coneSolidAngle
    have := Real.cos_le_one v
    have hp := Real.pi_pos
    nlinarith
  | nan => left; simp
  | pinf => left; simp
  | ninf => left; simp

theorem sensitivityOf_total {c : Ctx} {E : List (FV ℝ)} (w : WellFormed c E) (sel bsel : List Bool) (t : CutTable ℝ (FV ℝ)) :
    ∃ T, sensitivityOf c sel bsel t = .ok T := by
  refine (sensitivityOf_spec w.bins w.incr w.sigParticle w.bgParticle sel bsel t).2 w.two ?_
  intro i hi
  obtain ⟨a, ha, hal⟩ := w.alpha
  have hss : 0 ≤ sigSum c E sel i := by
    unfold sigSum
    apply sum_nonneg'
    intro e he
    exact w.sigWeight e (mem_select (List.mem_filter.mp he).1)
  apply rel_total _ _ w.brentq
  · rcases bgEst_nonneg w bsel (t.center.zip t.cut) i (mid E i) with h | ⟨y, hy, h⟩
    · rw [h]; simp [NonNeg]
    · rw [h, hal]
      simp only [NonNeg, FV.fin_mul_fin, FV.fin_add_fin, FV.lt_fin, decide_eq_false_iff_not, not_lt]
      positivity
  · rcases bgEst_nonneg w bsel (t.center.zip t.cut) i (mid E i) with h | ⟨y, hy, h⟩
    · rw [h]; simp [NonNeg]
    · rw [h]
      simp only [NonNeg, FV.lt_fin, decide_eq_false_iff_not, not_lt]
      exact hy

/-- a loop without failures succeeds -/
theorem foldlM_total {B : Type} (step : B → ℕ → Except Err B) (Inv : B → Prop) (n : ℕ)
    (hstep : ∀ b i, i < n → Inv b → ∃ b', step b i = .ok b' ∧ Inv b') (b0 : B) (h0 : Inv b0) :
    ∃ b, (List.range n).foldlM step b0 = .ok b := by
  have : ∀ m ≤ n, ∃ b, (List.range m).foldlM step b0 = .ok b ∧ Inv b := by
    intro m
    induction m with
    | zero => intro _; exact ⟨b0, rfl, h0⟩
    | succ m ih =>
      intro hm
      obtain ⟨b, hb, hI⟩ := ih (by omega)
      obtain ⟨b', hb', hI'⟩ := hstep b m (by omega) hI
      refine ⟨b', ?_, hI'⟩
      rw [List.range_succ, List.foldlM_append, hb]
      simp only [bind, Except.bind, List.foldlM_cons, List.foldlM_nil, hb']
      rfl
  obtain ⟨b, hb, -⟩ := this n le_rfl
  exact ⟨b, hb⟩

theorem mapM_total {α β : Type} (f : α → Except Err β) (l : List α) (h : ∀ a ∈ l, ∃ b, f a = .ok b) : ∃ r, l.mapM f = .ok r := by
  induction l with
  | nil => exact ⟨[], by simp [pure, Except.pure]⟩
  | cons a l ih =>
    obtain ⟨b, hb⟩ := h a (by simp)
    obtain ⟨r, hr⟩ := ih (fun x hx => h x (by simp [hx]))
    exact ⟨b :: r, by simp [List.mapM_cons, hb, hr, bind, Except.bind, pure, Except.pure]⟩

/-- percentile cuts for percentiles in [0, 100] and some event in the bins: they succeed, with one cut per percentile in every bin -/
theorem percentileCuts_total {E : List (FV ℝ)} (hE : Np.Increasing1 E) (evs : List (FV ℝ × FV ℝ)) (fill : FV ℝ) (ps : List ℝ)
    (hp : ∀ p ∈ ps, 0 ≤ p ∧ p ≤ 100) (hl : 0 < E.length) (hin : SomeInside E evs) (minV maxV : Option (FV ℝ)) (k : ℤ) :
    ∃ t, percentileCuts evs E fill ps minV maxV k = .ok t ∧ t.low = E.dropLast ∧
      t.high = E.tail ∧ t.center = binCenter E ∧
      t.cut.length = E.length - 1 ∧ ∀ row ∈ t.cut, row.length = ps.length := by
  have hinc : Increasing E := hE.increasing
  have hpct : ∀ g : List (FV ℝ), ∃ v, ps.mapM (fun p => Np.nanpercentile g p) = .ok v := by
    intro g
    apply mapM_total
    intro p hpm
    have := hp p hpm
    unfold Np.nanpercentile Np.nanquantile
    rw [if_pos ⟨by linarith [this.1], by linarith [this.2]⟩]
    exact ⟨_, rfl⟩
  have : ∃ t, percentileCuts evs E fill ps minV maxV k = .ok t ∧ ∀ row ∈ t.cut, row.length = ps.length := by
    unfold percentileCuts cutTable
    rw [calculateBinIndices_increasing hinc _ rfl]
    simp only []
    have loop : ∀ (l : List ℕ) (bb : List (ℕ × FV ℝ)) (t0 : CutTable ℝ (List (FV ℝ))), (∀ row ∈ t0.cut, row.length = ps.length) →
        ∃ t, l.foldlM (cutStep (fun g => ps.mapM (fun p => Np.nanpercentile g p)) (fun vs => vs.map (clipOpt minV maxV))
          (ps.map fun _ => fill) k bb) t0 = .ok t ∧ ∀ row ∈ t.cut, row.length = ps.length := by
      intro l bb
      induction l with
      | nil => intro t0 h0; exact ⟨t0, rfl, h0⟩
      | cons a l ih =>
        intro t0 h0
        rw [List.foldlM_cons]
        have : ∃ t1, cutStep (fun g => ps.mapM (fun p => Np.nanpercentile g p)) (fun vs => vs.map (clipOpt minV maxV))
          (ps.map fun _ => fill) k bb t0 a = .ok t1 ∧ ∀ row ∈ t1.cut, row.length = ps.length := by
          unfold cutStep
          simp only []
          split
          · refine ⟨_, rfl, ?_⟩
            intro row hrow
            rcases List.mem_or_eq_of_mem_set hrow with h | h
            · exact h0 row h
            · rw [h]; simp
          · obtain ⟨v, hv⟩ := hpct ((bb.filter (fun e => e.1 = a)).map Prod.snd)
            rw [hv]
            refine ⟨_, rfl, ?_⟩
            intro row hrow
            rcases List.mem_or_eq_of_mem_set hrow with h | h
            · exact h0 row h
            · rw [h, List.length_map]
              exact (mapM_ok_iff _ _ _ hv).1
        obtain ⟨t1, h1, h2⟩ := this
        obtain ⟨t, h3, h4⟩ := ih t1 h2
        exact ⟨t, by rw [h1]; exact h3, h4⟩
    have hgb : ∃ keys, groupedBy (((((evs.map Prod.snd).map (binIdx E)).zip (evs.map Prod.fst)).filter (fun e => e.1.2)).map
        (fun e => (e.1.1.toNat, e.2)) |>.map Prod.fst) = .ok keys :=
      ⟨_, if_neg fun hnb => (byBinList_nil_iff hinc hl evs).mp hnb hin⟩
    obtain ⟨keys, hgb⟩ := hgb
    simp only [hgb]
    apply loop
    intro row hrow
    rw [List.eq_of_mem_replicate hrow]; simp
  obtain ⟨t, ht, hr⟩ := this
  have ht' := ht
  unfold percentileCuts at ht'
  obtain ⟨a, b, d, e⟩ := cutTable_shape ht'
  exact ⟨t, ht, a, b, d, by simpa using e, hr⟩

theorem gridAt_total {g : List (CutTable ℝ (List (FV ℝ)))} {mi i j : ℕ} {t : CutTable ℝ (List (FV ℝ))} {n m : ℕ}
    (h : g[mi]? = some t) (hc : t.cut.length = n) (hr : ∀ row ∈ t.cut, m ≤ row.length) (hi : i < n) (hj : j < m) :
    ∃ v, gridAt g mi i j = .ok v := by
  subst hc
  have h2 : m ≤ (t.cut[i]).length := hr _ (List.getElem_mem hi)
  unfold gridAt
  rw [h]
  simp only []
  rw [List.getElem?_eq_getElem hi]
  simp only []
  rw [List.getElem?_eq_getElem (by omega)]
  exact ⟨_, rfl⟩

theorem itemAt_total {α : Type} {l : List α} {i : ℕ} (h : i < l.length) : ∃ v, itemAt l i = .ok v ∧ l[i]? = some v := by
  unfold itemAt
  rw [List.getElem?_eq_getElem h]
  exact ⟨_, rfl, rfl⟩

theorem relAt_total {tables : List (Table (FV ℝ))} {n i : ℕ} (hi : i < n)
    (h : ∀ T ∈ tables, Rect T n ∧ LastCol T "relative_sensitivity") : ∃ rels, relAt tables i = .ok rels := by
  unfold relAt
  apply mapM_total
  intro T hT
  obtain ⟨hr, hl⟩ := h T hT
  obtain ⟨col, hc, hm⟩ := lastCol_get hl
  have := hr _ (List.mem_of_getElem? hm)
  simp only [] at this
  rw [hc]
  simp only []
  rw [List.getElem?_eq_getElem (by omega)]
  exact ⟨_, rfl⟩

theorem npMax_total {l : List (FV ℝ)} (h : l ≠ []) : ∃ v, npMax l = .ok v := by
  cases l with
  | nil => exact absurd rfl h
  | cons a l => exact ⟨_, rfl⟩
theorem npMin_total {l : List (FV ℝ)} (h : l ≠ []) : ∃ v, npMin l = .ok v := by
  cases l with
  | nil => exact absurd rfl h
  | cons a l => exact ⟨_, rfl⟩

theorem setRow_total {t o : Table (FV ℝ)} {i n m : ℕ} (h1 : t.cols.length = m) (h2 : o.cols.length = m) (ht : Rect t n)
    (ho : Rect o n) (hi : i < n) : ∃ t', t.setRow i o = .ok t' ∧ t'.cols.length = m ∧ Rect t' n := by
  have : ∃ t', t.setRow i o = .ok t' := by
    unfold Table.setRow
    rw [if_neg (by omega)]
    exact ⟨_, rfl⟩
  obtain ⟨t', h⟩ := this
  obtain ⟨-, hn, hr, -⟩ := setRow_ok ht ho hi h
  refine ⟨t', h, ?_, hr⟩
  have := congrArg List.length hn
  simp only [Table.names, List.length_map] at this
  omega

/-! ## C79 -/

section
variable {c : Ctx} {E : List (FV ℝ)}

theorem tables_shape (w : WellFormed c E) {sel bsel : List Bool} {t : CutTable ℝ (FV ℝ)} {T : Table (FV ℝ)}
    (h : sensitivityOf c sel bsel t = .ok T) :
    Rect T (E.length - 1) ∧ LastCol T "relative_sensitivity" := by
  obtain ⟨a, b, -⟩ := (sensitivityOf_spec w.bins w.incr w.sigParticle w.bgParticle sel bsel t).1 T h
  exact ⟨a, b⟩

theorem cols_of_names {T T' : Table (FV ℝ)} (h : T.names = T'.names) : T.cols.length = T'.cols.length := by
  have := congrArg List.length h
  simpa [Table.names] using this

/-- **C79** (`optimize_gh_cut`) On well-formed input, with a non-empty list of efficiencies in [0, 1] and a theta cut table for
any increasing bins `B`, and with some signal event in the energy bins, `optimize_gh_cut` returns a result if, in case there is a particle type column, all scanned cuts leave the same
background particle types. -/
theorem C79_optimize_gh_cut_succeeds (w : WellFormed c E) (ghEff : List ℝ) (hne : ghEff ≠ [])
    (heff : ∀ x ∈ ghEff, 0 ≤ x ∧ x ≤ 1) (thetaCuts : CutTable ℝ (FV ℝ)) (op : FV ℝ → FV ℝ → Bool)
    (B : List (FV ℝ)) (hB : Np.Increasing1 B) (hB2 : 2 ≤ B.length)
    (hlow : thetaCuts.low = B.dropLast) (hhigh : thetaCuts.high = B.tail)
    (hcut : thetaCuts.cut.length = B.length - 1) (hsame : SameTypesGh c ghEff op)
    (hin : ∃ e ∈ c.signal.rows, ∃ i, InBin E i e.energy) :
    ∃ out, optimizeGhCut c ghEff thetaCuts op = .ok out := by
  have hinc : Increasing E := w.incr.increasing
  have hl2 : 2 ≤ E.length := by simpa using w.two
  have hgne : c.signal.rows.map Ev.gh ≠ [] := by simpa using w.signal
  unfold optimizeGhCut
  rw [eval_mask hB.increasing hB2 thetaCuts hlow hhigh (by rw [hcut])]
  have hset : ∃ ps f, ghScanSetup c ghEff op = .ok (ps, f) ∧ ps.length = ghEff.length ∧ ∀ p ∈ ps, 0 ≤ p ∧ p ≤ 100 := by
    unfold ghScanSetup
    split
    · obtain ⟨v, hv⟩ := npMin_total hgne
      rw [hv]
      refine ⟨_, _, rfl, by simp, ?_⟩
      intro p hp
      obtain ⟨x, hx, rfl⟩ := List.mem_map.mp hp
      have := heff x hx
      constructor <;> linarith
    · obtain ⟨v, hv⟩ := npMax_total hgne
      rw [hv]
      refine ⟨_, _, rfl, by simp, ?_⟩
      intro p hp
      obtain ⟨x, hx, rfl⟩ := List.mem_map.mp hp
      have := heff x hx
      constructor <;> linarith
  obtain ⟨ps, f, hset, hpl, hps⟩ := hset
  obtain ⟨grid, hgrid, g1, g2, g3, g4, g5⟩ := percentileCuts_total w.incr (c.signal.rows.map fun e => (e.gh, e.energy)) f ps hps
    (by omega) (by obtain ⟨e, he, i, hi⟩ := hin; exact ⟨_, List.mem_map_of_mem he, i, hi⟩) none none minEventsDefault
  have hcol : ∀ j, (cutColumn grid j).cut.length = E.length - 1 := fun j => by simp [cutColumn, g4]
  simp only [bind, Except.bind, hset, w.bins, hgrid]
  have htab : ∃ tables, (List.range ghEff.length).mapM (fun j => scanGh c thetaCuts op
      (((c.signal.rows.map Ev.theta).zip (c.signal.rows.map Ev.energy)).map fun e => passes B thetaCuts.cut FV.le e.1 e.2)
        (cutColumn grid j)) = .ok tables := by
    apply mapM_total
    intro j _
    unfold scanGh
    rw [eval_mask hinc hl2 (cutColumn grid j) g1 g2 (hcol j), eval_mask hinc hl2 (cutColumn grid j) g1 g2 (hcol j)]
    exact sensitivityOf_total w _ _ _
  obtain ⟨tables, htables⟩ := htab
  rw [htables]
  obtain ⟨hlen, hk⟩ := mapM_ok_iff _ _ _ htables
  rw [List.length_range] at hlen
  have hscan : ∀ (j : ℕ) (T : Table (FV ℝ)), tables[j]? = some T → ∃ sel, sensitivityOf c sel
      (c.background.rows.map fun e => passes E (cutColumn grid j).cut op e.gh e.energy) thetaCuts = .ok T := by
    intro j T hj
    have hjl : j < ghEff.length := by rw [← hlen]; exact (List.getElem?_eq_some_iff.mp hj).1
    have := hk j j T (by rw [List.getElem?_range hjl]) hj
    unfold scanGh at this
    rw [eval_mask hinc hl2 (cutColumn grid j) g1 g2 (hcol j), eval_mask hinc hl2 (cutColumn grid j) g1 g2 (hcol j)] at this
    simp only [zip_map_map] at this
    exact ⟨_, this⟩
  have hpos : 0 < ghEff.length := List.length_pos_iff.mpr hne
  obtain ⟨first, hf1, hf2⟩ := itemAt_total (l := tables) (i := 0) (by omega)
  have hshape : ∀ T ∈ tables, Rect T (E.length - 1) ∧ LastCol T "relative_sensitivity" ∧ T.cols.length = first.cols.length := by
    intro T hT
    obtain ⟨j, hj⟩ := List.mem_iff_getElem?.mp hT
    have hjl : j < ghEff.length := by rw [← hlen]; exact (List.getElem?_eq_some_iff.mp hj).1
    obtain ⟨sel, h⟩ := hscan j T hj
    obtain ⟨sel0, h0⟩ := hscan 0 first hf2
    refine ⟨(tables_shape w h).1, (tables_shape w h).2, cols_of_names ?_⟩
    refine sensitivityOf_names (by rw [w.bins]; exact hinc) h h0 ?_
    intro hp p
    have hgr : ∀ i, GhCuts c ghEff op i (cutColumn grid i).cut := fun i =>
      ⟨(ps, f), grid, hset, by rw [w.bins]; exact hgrid, rfl⟩
    have := Set.ext_iff.mp (hsame hp j 0 _ _ hjl hpos (hgr j) (hgr 0)) p
    rw [w.bins] at this
    simpa only [leftTypes, PassesGh, Set.mem_setOf_eq, passes_iff] using this
  have hfs := hshape first (List.mem_of_getElem? hf2)
  simp only []
  rw [hf1]
  simp only []
  refine foldlM_total _ (fun b => Rect b.sens (E.length - 1) ∧ b.sens.cols.length = first.cols.length) _ ?_ _ ⟨hfs.1, hfs.2.2⟩
  intro b i hi hI
  obtain ⟨rels, hrels⟩ := relAt_total hi (fun T hT => ⟨(hshape T hT).1, (hshape T hT).2.1⟩)
  have hrl := (relAt_ok hrels).1
  have hbest : bestIndex rels < ghEff.length := by
    have := (bestIndex_best rels (by intro h0; rw [h0] at hrl; simp at hrl; omega)).inRange
    omega
  obtain ⟨T, hT1, hT2⟩ := itemAt_total (l := tables) (i := bestIndex rels) (by omega)
  have hTs := hshape T (List.mem_of_getElem? hT2)
  obtain ⟨s', hs1, hs2, hs3⟩ := setRow_total hI.2 hTs.2.2 hI.1 hTs.1 hi
  obtain ⟨v, hv⟩ := gridAt_total (g := [grid]) (mi := 0) (by rfl) g4 (fun row hr => (g5 row hr).ge) hi (by omega : bestIndex rels < ps.length)
  obtain ⟨e, he, -⟩ := itemAt_total hbest
  unfold bestGhStep
  simp only [bind, Except.bind, hrels, hT1, hs1, hv, he]
  exact ⟨_, rfl, hs3, hs2⟩

/-- the percentiles handed to `np.nanpercentile` for theta are in range in both cases -/
theorem thetaPercentiles_range {g : Grid} (hth : ∀ x ∈ g.thetaEff, 0 ≤ x ∧ x ≤ 1) {p : ℝ} (hp : p ∈ thetaPercentiles g) :
    0 ≤ p ∧ p ≤ 100 := by
  unfold thetaPercentiles at hp
  split at hp
  · obtain ⟨l, hl, hpl⟩ := List.mem_flatten.mp hp
    rw [List.eq_of_mem_replicate hl] at hpl
    have := hth p hpl
    constructor <;> linarith
  · obtain ⟨x, hx, rfl⟩ := List.mem_map.mp hp
    have := hth x hx
    constructor <;> linarith

theorem le_length_thetaPercentiles (g : Grid) : g.thetaEff.length ≤ (thetaPercentiles g).length := by
  unfold thetaPercentiles
  split <;> simp <;> omega

/-- the entry of a listed efficiency -/
theorem thetaPercentiles_get {g : Grid} {j : ℕ} {e : ℝ} (h : g.thetaEff[j]? = some e) :
    (thetaPercentiles g)[j]? = some (if g.thetaIsList then e else 100 * e) := by
  unfold thetaPercentiles
  split
  · rw [show (100 : ℕ) = 99 + 1 from rfl, List.replicate_succ, List.flatten_cons, List.getElem?_append_left]
    · exact h
    · exact (List.getElem?_eq_some_iff.mp h).1
  · rw [List.getElem?_map, h]; rfl

theorem ghGrid_total (w : WellFormed c E) (g : Grid) (hgh : ∀ x ∈ g.ghEff, 0 ≤ x ∧ x ≤ 1) (fill m : FV ℝ)
    (hin : ∃ e ∈ c.signal.rows, FV.ge e.mult m = true ∧ ∃ i, InBin E i e.energy) :
    ∃ t, ghGrid c g fill m = .ok t ∧ t.cut.length = E.length - 1 ∧ ∀ row ∈ t.cut, row.length = g.ghEff.length := by
  have hl0 : 0 < E.length := by have := w.two; omega
  obtain ⟨e0, he0, hem, i0, hi0⟩ := hin
  obtain ⟨t, h1, -, -, -, h2, h3⟩ := percentileCuts_total w.incr
    ((c.signal.rows.filter (fun e => FV.ge e.mult m)).map fun e => (e.gh, e.energy)) fill (g.ghEff.map fun x => 100 * (1 - x))
    (by intro p hp
        obtain ⟨x, hx, rfl⟩ := List.mem_map.mp hp
        have := hgh x hx
        constructor <;> linarith) hl0 ⟨_, List.mem_map_of_mem (List.mem_filter.mpr ⟨he0, hem⟩), i0, hi0⟩ none none minEventsDefault
  refine ⟨t, ?_, h2, by simpa using h3⟩
  unfold ghGrid; rw [w.bins]; exact h1

theorem thetaGrid_total (w : WellFormed c E) (g : Grid) (hth : ∀ x ∈ g.thetaEff, 0 ≤ x ∧ x ≤ 1) (m : FV ℝ)
    (hin : ∃ e ∈ c.signal.rows, FV.ge e.mult m = true ∧ ∃ i, InBin E i e.energy) :
    ∃ t, thetaGrid c g m = .ok t ∧ t.cut.length = E.length - 1 ∧ ∀ row ∈ t.cut, g.thetaEff.length ≤ row.length := by
  have hl0 : 0 < E.length := by have := w.two; omega
  obtain ⟨e0, he0, hem, i0, hi0⟩ := hin
  obtain ⟨t, h1, -, -, -, h2, h3⟩ := percentileCuts_total w.incr
    ((c.signal.rows.filter (fun e => FV.ge e.mult m)).map fun e => (e.theta, e.energy)) g.thetaMax (thetaPercentiles g)
    (fun p hp => thetaPercentiles_range hth hp) hl0 ⟨_, List.mem_map_of_mem (List.mem_filter.mpr ⟨he0, hem⟩), i0, hi0⟩
    (some g.thetaMin) (some g.thetaMax) minEventsDefault
  refine ⟨t, ?_, h2, fun row hr => by rw [h3 row hr]; exact le_length_thetaPercentiles g⟩
  unfold thetaGrid; rw [w.bins]; exact h1

theorem scanMult_total (w : WellFormed c E) (g : Grid) (hgh : ∀ x ∈ g.ghEff, 0 ≤ x ∧ x ≤ 1) (hth : ∀ x ∈ g.thetaEff, 0 ≤ x ∧ x ≤ 1)
    (fill : FV ℝ) (mm : FV ℝ × ℕ) (hin : ∃ e ∈ c.signal.rows, FV.ge e.mult mm.1 = true ∧ ∃ i, InBin E i e.energy) :
    ∃ r, scanMult c g fill ((c.signal.rows.map Ev.energy).map (binIdx E)) ((c.background.rows.map Ev.energy).map (binIdx E)) mm = .ok r := by
  have hinc : Increasing E := w.incr.increasing
  obtain ⟨gT, hgT, gl, -⟩ := ghGrid_total w g hgh fill mm.1 hin
  obtain ⟨tT, htT, tl, -⟩ := thetaGrid_total w g hth mm.1 hin
  unfold scanMult
  rw [hgT, htT]
  simp only []
  have : ∃ l, ((List.range g.ghEff.length) ×ˢ (List.range g.thetaEff.length)).mapM (fun gt =>
        match scanOne c ((c.signal.rows.map Ev.energy).map (binIdx E)) ((c.background.rows.map Ev.energy).map (binIdx E)) mm.1 (cutColumn tT gt.2) (cutColumn gT gt.1) with
        | .error e => Except.error e
        | .ok s => .ok (((mm.2, gt.2, gt.1), s) : Scan)) = .ok l := by
    apply mapM_total
    intro gt _
    have : ∃ s, scanOne c ((c.signal.rows.map Ev.energy).map (binIdx E)) ((c.background.rows.map Ev.energy).map (binIdx E)) mm.1 (cutColumn tT gt.2) (cutColumn gT gt.1) = .ok s := by
      unfold scanOne
      have hl0 : 0 < E.length := by have := w.two; simp; omega
      rw [byIndex_mask hinc hl0 (cutColumn tT gt.2) (by simp [cutColumn, tl]),
        byIndex_mask hinc hl0 (cutColumn gT gt.1) (by simp [cutColumn, gl]),
        byIndex_mask hinc hl0 (cutColumn gT gt.1) (by simp [cutColumn, gl])]
      exact sensitivityOf_total w _ _ _
    obtain ⟨s, hs⟩ := this
    rw [hs]
    exact ⟨_, rfl⟩
  obtain ⟨l, hl⟩ := this
  split
  · rename_i e he
    exact absurd (he.symm.trans hl) (by simp)
  · exact ⟨_, rfl⟩

/-- no signal event passes the multiplicity cut inside the bins: the percentiles cannot be computed -/
theorem scanMult_none (w : WellFormed c E) (g : Grid) (fill : FV ℝ) (sIdx bIdx : List (ℤ × Bool)) (mm : FV ℝ × ℕ)
    (hin : ¬ ∃ e ∈ c.signal.rows, FV.ge e.mult mm.1 = true ∧ ∃ i, InBin E i e.energy) :
    scanMult c g fill sIdx bIdx mm = .error .indexError := by
  have hl0 : 0 < E.length := by have := w.two; omega
  have : ghGrid c g fill mm.1 = .error .indexError := by
    unfold ghGrid
    rw [w.bins]
    refine (C08_no_event_in_bins _ E fill 0 _ none none minEventsDefault w.incr.increasing hl0 ?_).2
    intro p hp i hi
    obtain ⟨e, he, rfl⟩ := List.mem_map.mp hp
    obtain ⟨h1, h2⟩ := List.mem_filter.mp he
    exact hin ⟨e, h1, h2, i, hi⟩
  unfold scanMult
  rw [this]

theorem mapM_fails {α β : Type} (f : α → Except Err β) (e : Err) (l : List α) (h : ∀ a ∈ l, (∃ b, f a = .ok b) ∨ f a = .error e)
    (hex : ∃ a ∈ l, f a = .error e) : l.mapM f = .error e := by
  induction l with
  | nil => obtain ⟨a, ha, -⟩ := hex; exact absurd ha (by simp)
  | cons a l ih =>
    rw [List.mapM_cons]
    rcases h a (by simp) with ⟨b, hb⟩ | he
    · obtain ⟨a', ha', hf⟩ := hex
      have ha' : a' ∈ l := by
        rcases List.mem_cons.mp ha' with rfl | h'
        · rw [hb] at hf; exact absurd hf (by simp)
        · exact h'
      rw [hb, ih (fun x hx => h x (by simp [hx])) ⟨a', ha', hf⟩]
      rfl
    · rw [he]; rfl

/-- **C79** (`optimize_cuts`) On well-formed input with non-empty lists of multiplicity cuts and of gh and theta efficiencies in
[0, 1], where each multiplicity cut leaves a signal event in the energy bins, `optimize_cuts` returns a result if, in case there is a particle type column, all scanned combinations leave the same background
particle types. -/
theorem C79_optimize_cuts_succeeds (w : WellFormed c E) (g : Grid) (hm : g.mults ≠ []) (hg : g.ghEff ≠ []) (ht : g.thetaEff ≠ [])
    (hgh : ∀ x ∈ g.ghEff, 0 ≤ x ∧ x ≤ 1) (hth : ∀ x ∈ g.thetaEff, 0 ≤ x ∧ x ≤ 1) (hsame : SameTypes c g)
    (hin : ∀ m ∈ g.mults, ∃ e ∈ c.signal.rows, FV.ge e.mult m = true ∧ ∃ i, InBin E i e.energy) : ∃ out, optimizeCuts c g = .ok out := by
  have hinc : Increasing E := w.incr.increasing
  obtain ⟨fill, hfill⟩ := npMax_total (l := c.signal.rows.map Ev.gh) (by simpa using w.signal)
  have hl0 : 0 < E.length := by have := w.two; omega
  have hgG := fun m hm => ghGrid_total w g hgh fill m (hin m hm)
  have htG := fun m hm => thetaGrid_total w g hth m (hin m hm)
  unfold optimizeCuts
  rw [hfill, w.bins]
  simp only [bind, Except.bind]
  rw [calculateBinIndices_increasing hinc _ rfl, calculateBinIndices_increasing hinc _ rfl]
  simp only []
  set sIdx := (c.signal.rows.map Ev.energy).map (binIdx E) with hsI
  set bIdx := (c.background.rows.map Ev.energy).map (binIdx E) with hbI
  have hscan : ∀ mm ∈ g.mults.zipIdx, ∃ r, scanMult c g fill sIdx bIdx mm = .ok r := by
    intro mm hmm
    have hm1 : mm.1 ∈ g.mults := by
      have := List.mem_zipIdx hmm
      rw [this.2.2]; exact List.getElem_mem _
    exact scanMult_total w g hgh hth fill mm (hin mm.1 hm1)
  obtain ⟨grids, hgrids⟩ := mapM_total (scanMult c g fill sIdx bIdx) g.mults.zipIdx hscan
  rw [hgrids]
  simp only []
  obtain ⟨hlen, hk⟩ := mapM_ok_iff _ _ _ hgrids
  rw [List.length_zipIdx] at hlen
  have hgk : ∀ (k : ℕ) r, grids[k]? = some r → ∃ m, g.mults[k]? = some m ∧ scanMult c g fill sIdx bIdx (m, k) = .ok r := by
    intro k r hr
    have hkl : k < g.mults.length := by rw [← hlen]; exact (List.getElem?_eq_some_iff.mp hr).1
    refine ⟨g.mults[k], List.getElem?_eq_getElem hkl, ?_⟩
    exact hk k _ r (by rw [List.getElem?_zipIdx, List.getElem?_eq_getElem hkl]; simp) hr
  set scans := grids.flatMap (fun x => x.2.2) with hsc
  have hmem0 : ∀ s ∈ scans, s.1.1 < g.mults.length ∧ s.1.2.1 < g.thetaEff.length ∧ s.1.2.2 < g.ghEff.length ∧
      Rect s.2 (E.length - 1) ∧ LastCol s.2 "relative_sensitivity" ∧ ∃ m gh sel t, MultGhCuts c g s.1.1 s.1.2.2 m gh ∧
        sensitivityOf c sel (c.background.rows.map fun e => passes E gh FV.ge e.gh e.energy && FV.ge e.mult m) t = .ok s.2 := by
    intro s hs
    rw [hsc, List.mem_flatMap] at hs
    obtain ⟨r, hr, hsr⟩ := hs
    obtain ⟨k, hkr⟩ := List.mem_iff_getElem?.mp hr
    obtain ⟨m, hm1, hm2⟩ := hgk k r hkr
    obtain ⟨q1, q2, h3, -, -⟩ := scanMult_ok hm2
    obtain ⟨a1, a2, a3, a4⟩ := h3 s hsr
    obtain ⟨sel, bsel, h⟩ := scanOne_is a4
    have hcombo : Combo c g s.1.1 s.1.2.1 s.1.2.2 m _ _ s.2 :=
      ⟨fill, sIdx, bIdx, _, _, hfill, by rw [w.bins]; exact calculateBinIndices_increasing hinc _ rfl,
        by rw [w.bins]; exact calculateBinIndices_increasing hinc _ rfl, by rw [a1]; exact hm1, q1, q2, rfl, rfl, a4⟩
    obtain ⟨-, -, t, -, -, ht⟩ := combo_masks w.bins w.incr w.two hcombo
    refine ⟨?_, a2, a3, (tables_shape w h).1, (tables_shape w h).2, m, _, _, t, ⟨fill, _, hfill, by rw [a1]; exact hm1, q1, rfl⟩, ht⟩
    rw [a1]; exact (List.getElem?_eq_some_iff.mp hm1).1
  have hsl : 0 < scans.length := by
    have hm0 : 0 < g.mults.length := List.length_pos_iff.mpr hm
    have hk0 : 0 < grids.length := by omega
    obtain ⟨m, hm1, hm2⟩ := hgk 0 grids[0] (List.getElem?_eq_getElem hk0)
    obtain ⟨-, -, -, h4, -⟩ := scanMult_ok hm2
    obtain ⟨T, hT⟩ := h4 0 (List.length_pos_iff.mpr ht) 0 (List.length_pos_iff.mpr hg)
    apply List.length_pos_iff.mpr
    apply List.ne_nil_of_mem (a := ((0, 0, 0), T))
    rw [hsc, List.mem_flatMap]
    exact ⟨_, List.getElem_mem hk0, hT⟩
  obtain ⟨first, hf1, hf2⟩ := itemAt_total (l := scans) (i := 0) hsl
  have hmem : ∀ s ∈ scans, s.1.1 < g.mults.length ∧ s.1.2.1 < g.thetaEff.length ∧ s.1.2.2 < g.ghEff.length ∧
      Rect s.2 (E.length - 1) ∧ LastCol s.2 "relative_sensitivity" ∧ s.2.cols.length = first.2.cols.length := by
    intro s hs
    obtain ⟨b1, b2, b3, b4, b5, m, gh, sel, t, b6, b7⟩ := hmem0 s hs
    obtain ⟨-, -, d3, -, -, m', gh', sel', t', d6, d7⟩ := hmem0 first (List.mem_of_getElem? hf2)
    refine ⟨b1, b2, b3, b4, b5, cols_of_names ?_⟩
    refine sensitivityOf_names (by rw [w.bins]; exact hinc) b7 d7 ?_
    intro hp p
    have := Set.ext_iff.mp (hsame hp _ _ _ _ _ _ _ _ b3 d3 b6 d6) p
    rw [w.bins] at this
    simpa only [leftTypes, PassesGh, Set.mem_setOf_eq, passes_iff, Bool.and_eq_true] using this
  have hfs := hmem first (List.mem_of_getElem? hf2)
  rw [hf1]
  simp only []
  refine foldlM_total _ (fun b => Rect b.sens (E.length - 1) ∧ b.sens.cols.length = first.2.cols.length) _ ?_ _ ⟨hfs.2.2.2.1, hfs.2.2.2.2.2⟩
  intro b i hi hI
  obtain ⟨rels, hrels⟩ := relAt_total (tables := scans.map Prod.snd) hi (by
    intro T hT
    obtain ⟨s, hs, rfl⟩ := List.mem_map.mp hT
    exact ⟨(hmem s hs).2.2.2.1, (hmem s hs).2.2.2.2.1⟩)
  have hrl := (relAt_ok hrels).1
  rw [List.length_map] at hrl
  have hbest : bestIndex rels < scans.length := by
    have := (bestIndex_best rels (by intro h0; rw [h0] at hrl; simp at hrl; omega)).inRange
    omega
  obtain ⟨s, hT1, hT2⟩ := itemAt_total (l := scans) (i := bestIndex rels) hbest
  obtain ⟨m1, m2, m3, m4, m5, m6⟩ := hmem s (List.mem_of_getElem? hT2)
  obtain ⟨s', hs1, hs2, hs3⟩ := setRow_total hI.2 m6 hI.1 m4 hi
  have hgs : s.1.1 < grids.length := by omega
  obtain ⟨m, hm1, hm2⟩ := hgk s.1.1 grids[s.1.1] (List.getElem?_eq_getElem hgs)
  obtain ⟨b1, b2, -⟩ := scanMult_ok hm2
  obtain ⟨gT, c1, c2, c3⟩ := hgG m (List.mem_of_getElem? hm1)
  obtain ⟨tT, d1, d2, d3⟩ := htG m (List.mem_of_getElem? hm1)
  rw [c1] at b1
  rw [d1] at b2
  obtain ⟨v, hv⟩ := gridAt_total (g := grids.map fun x => x.1) (mi := s.1.1) (i := i) (j := s.1.2.2)
    (by rw [List.getElem?_map, List.getElem?_eq_getElem hgs]; rw [Option.map_some, ← Except.ok.inj b1]) c2 (fun row hr => (c3 row hr).ge) hi m3
  obtain ⟨u, hu⟩ := gridAt_total (g := grids.map fun x => x.2.1) (mi := s.1.1) (i := i) (j := s.1.2.1)
    (by rw [List.getElem?_map, List.getElem?_eq_getElem hgs]; rw [Option.map_some, ← Except.ok.inj b2]) d2 d3 hi m2
  obtain ⟨x1, e1, -⟩ := itemAt_total m1
  obtain ⟨x2, e2, -⟩ := itemAt_total m2
  obtain ⟨x3, e3, -⟩ := itemAt_total m3
  unfold bestStep
  simp only [bind, Except.bind, hrels, hT1, hs1, hv, hu, e1, e2, e3]
  exact ⟨_, rfl, hs3, hs2⟩

/-- **C79** (deviation) A multiplicity cut that leaves no signal event in the energy bins stops the whole scan: `optimize_cuts` raises IndexError, even if other
multiplicity cuts leave events (well-formed input, efficiencies in [0, 1]). -/
theorem C79_optimize_cuts_none_in_bins (w : WellFormed c E) (g : Grid) (hgh : ∀ x ∈ g.ghEff, 0 ≤ x ∧ x ≤ 1) (hth : ∀ x ∈ g.thetaEff, 0 ≤ x ∧ x ≤ 1)
    (m : FV ℝ) (hm : m ∈ g.mults) (hout : ∀ e ∈ c.signal.rows, FV.ge e.mult m = true → ∀ i, ¬ InBin E i e.energy) :
    optimizeCuts c g = .error .indexError := by
  have hinc : Increasing E := w.incr.increasing
  obtain ⟨fill, hfill⟩ := npMax_total (l := c.signal.rows.map Ev.gh) (by simpa using w.signal)
  unfold optimizeCuts
  rw [hfill, w.bins]
  simp only [bind, Except.bind]
  rw [calculateBinIndices_increasing hinc _ rfl, calculateBinIndices_increasing hinc _ rfl]
  simp only []
  rw [mapM_fails _ .indexError]
  · intro mm _
    by_cases hin : ∃ e ∈ c.signal.rows, FV.ge e.mult mm.1 = true ∧ ∃ i, InBin E i e.energy
    · exact Or.inl (scanMult_total w g hgh hth fill mm hin)
    · exact Or.inr (scanMult_none w g fill _ _ mm hin)
  · obtain ⟨k, hk, rfl⟩ := List.getElem_of_mem hm
    refine ⟨(g.mults[k], k), by rw [List.mk_mem_zipIdx_iff_getElem?]; exact List.getElem?_eq_getElem hk, scanMult_none w g fill _ _ _ ?_⟩
    rintro ⟨e, he, h1, i, hi⟩
    exact hout e he h1 i hi

/-- **C79** (deviation) The same for `optimize_gh_cut` if no signal event lies in the energy bins. -/
theorem C79_optimize_gh_cut_none_in_bins (w : WellFormed c E) (ghEff : List ℝ) (thetaCuts : CutTable ℝ (FV ℝ)) (op : FV ℝ → FV ℝ → Bool)
    (B : List (FV ℝ)) (hB : Np.Increasing1 B) (hB2 : 2 ≤ B.length) (hlow : thetaCuts.low = B.dropLast) (hhigh : thetaCuts.high = B.tail)
    (hcut : thetaCuts.cut.length = B.length - 1) (hout : ∀ e ∈ c.signal.rows, ∀ i, ¬ InBin E i e.energy) :
    optimizeGhCut c ghEff thetaCuts op = .error .indexError := by
  have hl0 : 0 < E.length := by have := w.two; omega
  have hgne : c.signal.rows.map Ev.gh ≠ [] := by simpa using w.signal
  unfold optimizeGhCut
  rw [eval_mask hB.increasing hB2 thetaCuts hlow hhigh (by rw [hcut])]
  have hset : ∃ st, ghScanSetup c ghEff op = .ok st := by
    unfold ghScanSetup
    split
    · obtain ⟨v, hv⟩ := npMin_total hgne
      rw [hv]; exact ⟨_, rfl⟩
    · obtain ⟨v, hv⟩ := npMax_total hgne
      rw [hv]; exact ⟨_, rfl⟩
  obtain ⟨st, hset⟩ := hset
  simp only [bind, Except.bind, hset, w.bins]
  rw [(C08_no_event_in_bins _ E st.2 0 _ none none minEventsDefault w.incr.increasing hl0 ?_).2]
  intro p hp i hi
  obtain ⟨e, he, rfl⟩ := List.mem_map.mp hp
  exact hout e he i hi
end

/-- **C79** Without signal events `optimize_cuts` raises ValueError, whatever the other arguments are. -/
theorem C79_optimize_cuts_no_signal (c : Ctx) (g : Grid) (h : c.signal.rows = []) : optimizeCuts c g = .error .valueError := by
  unfold optimizeCuts
  rw [h]
  rfl

/-- **C79** The same for `optimize_gh_cut` with theta cuts for increasing energy bins, for all operators. -/
theorem C79_optimize_gh_cut_no_signal (c : Ctx) (h : c.signal.rows = []) (E : List (FV ℝ)) (incr : Np.Increasing1 E) (two : 2 ≤ E.length) (ghEff : List ℝ) (thetaCuts : CutTable ℝ (FV ℝ)) (op : FV ℝ → FV ℝ → Bool)
    (hlow : thetaCuts.low = E.dropLast) (hhigh : thetaCuts.high = E.tail) (hcut : thetaCuts.cut.length = E.length - 1) :
    optimizeGhCut c ghEff thetaCuts op = .error .valueError := by
  have hinc : Increasing E := incr.increasing
  have hl2 : 2 ≤ E.length := by simpa using two
  unfold optimizeGhCut
  rw [eval_mask hinc hl2 thetaCuts hlow hhigh (by rw [hcut])]
  have hs : ghScanSetup c ghEff op = .error .valueError := by
    unfold ghScanSetup
    rw [h]
    split <;> rfl
  rw [hs]
  rfl

/-! ## C77 for event lists with particle types -/

section
variable {c : Ctx} {E : List (FV ℝ)}

/-- **C77** (`optimize_gh_cut`) If all scanned cuts leave the same background particle types in the ring (or there is no particle type column), the whole
returned row of a bin is the row of the scanned cut that was chosen for it. -/
theorem C77_gh_rows_same_types (w : WellFormed c E) (ghEff : List ℝ) (thetaCuts : CutTable ℝ (FV ℝ)) (op : FV ℝ → FV ℝ → Bool) (out : BestGh)
    (hok : optimizeGhCut c ghEff thetaCuts op = .ok out) (hsame : SameTypesGh c ghEff op) (i : ℕ) (hi : i < E.length - 1) :
    ∃ j cuts T, j < ghEff.length ∧ GhScan c ghEff thetaCuts op j cuts T ∧ out.gh[i]? = cuts[i]? ∧
      ∀ name v, Cell out.sens name i v ↔ Cell T name i v := by
  have hinc : Increasing E := w.incr.increasing
  refine C77_gh_rows w.bins w.incr w.sigParticle w.bgParticle ghEff thetaCuts op out hok ?_ i hi
  intro j j' cuts cuts' T T' hj hj' h h'
  obtain ⟨mask, setup, grid, a1, a2, a3, a4, a5⟩ := h
  obtain ⟨mask', setup', grid', b1, b2, b3, b4, b5⟩ := h'
  have aux : ∀ {grid : CutTable ℝ (List (FV ℝ))} {setup : List ℝ × FV ℝ} {j : ℕ} {mask : List Bool} {T : Table (FV ℝ)},
      percentileCuts (c.signal.rows.map fun e => (e.gh, e.energy)) c.bins setup.2 setup.1 none none 10 = .ok grid →
      scanGh c thetaCuts op mask (cutColumn grid j) = .ok T → ∃ sel, sensitivityOf c sel
        (c.background.rows.map fun e => passes E (cutColumn grid j).cut op e.gh e.energy) thetaCuts = .ok T := by
    intro grid setup j mask T h1 h2
    unfold percentileCuts at h1
    obtain ⟨q1, q2, -, q4⟩ := cutTable_shape h1
    rw [w.bins] at q1 q2 q4
    have hcol : (cutColumn grid j).cut.length = E.length - 1 := by simpa [cutColumn] using q4
    unfold scanGh at h2
    rw [eval_mask hinc w.two (cutColumn grid j) q1 q2 hcol, eval_mask hinc w.two (cutColumn grid j) q1 q2 hcol] at h2
    simp only [zip_map_map] at h2
    exact ⟨_, h2⟩
  obtain ⟨sel, hA⟩ := aux a3 a5
  obtain ⟨sel', hB⟩ := aux b3 b5
  refine sensitivityOf_names (by rw [w.bins]; exact hinc) hA hB ?_
  intro hp p
  have := Set.ext_iff.mp (hsame hp j j' _ _ hj hj' ⟨setup, grid, a2, a3, rfl⟩ ⟨setup', grid', b2, b3, rfl⟩) p
  rw [w.bins] at this
  simpa only [leftTypes, PassesGh, Set.mem_setOf_eq, passes_iff] using this

/-- **C77** (`optimize_cuts`) The same for `optimize_cuts`. -/
theorem C77_cuts_rows_same_types (w : WellFormed c E) (g : Grid) (out : Best) (hok : optimizeCuts c g = .ok out)
    (hsame : SameTypes c g) (i : ℕ) (hi : i < E.length - 1) :
    ∃ mi ti gi m theta gh T, (mi, ti, gi) ∈ scanOrder g ∧ Combo c g mi ti gi m theta gh T ∧ out.mult[i]? = some m ∧ out.theta[i]? = theta[i]? ∧
      out.gh[i]? = gh[i]? ∧ ∀ name v, Cell out.sens name i v ↔ Cell T name i v := by
  have hinc : Increasing E := w.incr.increasing
  refine C77_cuts_rows w.bins w.incr w.sigParticle w.bgParticle g out hok ?_ i hi
  intro mi ti gi m theta gh T mi' ti' gi' m' theta' gh' T' ho ho' h h'
  have hM : MultGhCuts c g mi gi m gh := by
    obtain ⟨fill, sIdx, bIdx, ghT, thT, h1, h2, h3, h4, h5, h6, h7, h8, h9⟩ := h
    exact ⟨fill, ghT, h1, h4, h5, h8⟩
  have hM' : MultGhCuts c g mi' gi' m' gh' := by
    obtain ⟨fill, sIdx, bIdx, ghT, thT, h1, h2, h3, h4, h5, h6, h7, h8, h9⟩ := h'
    exact ⟨fill, ghT, h1, h4, h5, h8⟩
  obtain ⟨-, -, t, -, -, hA⟩ := combo_masks w.bins w.incr w.two h
  obtain ⟨-, -, t', -, -, hB⟩ := combo_masks w.bins w.incr w.two h'
  refine sensitivityOf_names (by rw [w.bins]; exact hinc) hA hB ?_
  intro hp p
  have := Set.ext_iff.mp (hsame hp _ _ _ _ _ _ _ _ ((mem_scanOrder g mi ti gi).mp ho).2.2 ((mem_scanOrder g mi' ti' gi').mp ho').2.2 hM hM') p
  rw [w.bins] at this
  simpa only [leftTypes, PassesGh, Set.mem_setOf_eq, passes_iff, Bool.and_eq_true] using this
end

/-! ## The hypotheses of C23, C24, C25, C77 and C79 are met -/

/-- with fewer than `min_events` events in total all cuts are the fill value -/
theorem percentileCuts_few {E : List (FV ℝ)} (hE : Np.Increasing1 E) (evs : List (FV ℝ × FV ℝ)) (fill : FV ℝ) (ps : List ℝ)
    (minV maxV : Option (FV ℝ)) (k : ℤ) (hk : (evs.length : ℤ) < k) (t : CutTable ℝ (List (FV ℝ)))
    (h : percentileCuts evs E fill ps minV maxV k = .ok t) :
    t.cut = List.replicate (E.length - 1) (ps.map fun _ => fill) := by
  have hsh := h
  unfold percentileCuts at hsh
  obtain ⟨-, -, -, hlen⟩ := cutTable_shape hsh
  unfold percentileCuts cutTable at h
  rw [calculateBinIndices_increasing hE.increasing _ rfl] at h
  simp only [] at h
  split at h
  · exact absurd h (by simp)
  rw [List.eq_replicate_iff]
  refine ⟨by simpa using hlen, ?_⟩
  set bb : List (ℕ × FV ℝ) := ((List.map (binIdx E) (List.map Prod.snd evs)).zip (List.map Prod.fst evs)).filter (fun e => e.1.2) |>.map
    (fun e => (e.1.1.toNat, e.2)) with hbb
  have hbl : bb.length ≤ evs.length := by
    rw [hbb, List.length_map]
    exact (List.length_filter_le _ _).trans (by simp)
  have loop : ∀ (l : List ℕ) (t0 : CutTable ℝ (List (FV ℝ))), (∀ row ∈ t0.cut, row = ps.map fun _ => fill) →
      l.foldlM (cutStep (fun g => ps.mapM (fun p => Np.nanpercentile g p)) (fun vs => vs.map (clipOpt minV maxV))
          (ps.map fun _ => fill) k bb) t0 = .ok t → ∀ row ∈ t.cut, row = ps.map fun _ => fill := by
    intro l
    induction l with
    | nil => intro t0 h0 h1; cases h1; exact h0
    | cons a l ih =>
      intro t0 h0 h1
      rw [List.foldlM_cons] at h1
      have hg : ((((bb.filter (fun e => e.1 = a)).map Prod.snd).length : ℕ) : ℤ) < k := by
        have : ((bb.filter (fun e => e.1 = a)).map Prod.snd).length ≤ bb.length := by
          rw [List.length_map]; exact List.length_filter_le _ _
        omega
      unfold cutStep at h1
      simp only [if_pos hg] at h1
      refine ih _ ?_ h1
      intro row hrow
      rcases List.mem_or_eq_of_mem_set hrow with h | h
      · exact h0 row h
      · exact h
  exact loop _ _ (fun row hrow => List.eq_of_mem_replicate hrow) h

/-- two signal and two background events (a proton and an electron) in two energy bins, the second one an overflow bin -/
noncomputable def exCtx : Ctx where
  brentq := fun _ _ hi => .ok hi
  sig := fun nOn _ _ => nOn
  th := ⟨.fin 5, .fin 10, .fin (5 / 100)⟩
  signal := ⟨true, false, [⟨.fin 1, .fin 0, .fin 0, .fin 1, .fin 4, 2, ""⟩, ⟨.fin 3, .fin 0, .fin 0, .fin (1 / 2), .fin 2, 3, ""⟩]⟩
  background := ⟨true, true, [⟨.fin 1, .nan, .fin 0, .fin 1, .fin 4, 1, "proton"⟩, ⟨.fin 3, .nan, .fin 0, .fin 0, .fin 3, 1, "electron"⟩]⟩
  bins := [.fin 0, .fin 2, .pinf]
  alpha := .fin (1 / 5)
  offMin := .fin 0
  offMax := .fin 1

theorem exCtx_wellFormed : WellFormed exCtx [.fin 0, .fin 2, .pinf] where
  bins := rfl
  incr := increasing1_overflow (E := [0, 2]) (by norm_num)
  two := by norm_num
  signal := by simp [exCtx]
  sigParticle := by intro h; exact absurd h (by simp [exCtx])
  bgParticle := by intro _ e he; simp only [exCtx, List.mem_cons, List.not_mem_nil, or_false] at he; rcases he with rfl | rfl <;> decide
  sigWeight := by simp [exCtx]
  bgWeight := by simp [exCtx]
  alpha := ⟨1 / 5, by norm_num, rfl⟩
  offsets := ⟨0, 1, le_rfl, by norm_num, by linarith [Real.two_le_pi], rfl, rfl⟩
  brentq := by intro f a b e h; exact absurd h (by simp [exCtx])

/-- two multiplicity cuts, two gh and two theta efficiencies -/
noncomputable def exGrid : Grid := ⟨[.fin 2, .fin 4], [1 / 2, 1], [3 / 10, 8 / 10], .fin 0, .fin 1, false⟩

theorem exCtx_inside : ∃ e ∈ exCtx.signal.rows, ∃ i, InBin [.fin 0, .fin 2, .pinf] i e.energy :=
  ⟨⟨.fin 1, .fin 0, .fin 0, .fin 1, .fin 4, 2, ""⟩, by simp [exCtx], 0, by simp, by norm_num [FV.le], by norm_num [FV.lt]⟩

theorem exCtx_insideMult : ∀ m ∈ exGrid.mults, ∃ e ∈ exCtx.signal.rows, FV.ge e.mult m = true ∧ ∃ i, InBin [.fin 0, .fin 2, .pinf] i e.energy := by
  intro m hm
  refine ⟨⟨.fin 1, .fin 0, .fin 0, .fin 1, .fin 4, 2, ""⟩, by simp [exCtx], ?_, 0, by simp, by norm_num [FV.le], by norm_num [FV.lt]⟩
  simp only [exGrid, List.mem_cons, List.not_mem_nil, or_false] at hm
  rcases hm with rfl | rfl <;> norm_num [FV.ge, FV.le]

/-- With a further multiplicity cut of 5, which no signal event passes, the scan fails. -/
example : optimizeCuts exCtx { exGrid with mults := [.fin 2, .fin 5] } = .error .indexError := by
  refine C79_optimize_cuts_none_in_bins exCtx_wellFormed _
    (by intro x hx; simp only [exGrid, List.mem_cons, List.not_mem_nil, or_false] at hx; rcases hx with rfl | rfl <;> norm_num)
    (by intro x hx; simp only [exGrid, List.mem_cons, List.not_mem_nil, or_false] at hx; rcases hx with rfl | rfl <;> norm_num)
    (.fin 5) (by simp) ?_
  intro e he h
  simp only [exCtx, List.mem_cons, List.not_mem_nil, or_false] at he
  rcases he with rfl | rfl <;> norm_num [FV.ge, FV.le] at h

theorem exCtx_max : npMax (exCtx.signal.rows.map Ev.gh) = .ok (.fin 1) := by
  simp [npMax, exCtx, FV.maximum]
  norm_num

theorem exCtx_sameTypes : SameTypes exCtx exGrid := by
  have key : ∀ mi gi m gh, gi < exGrid.ghEff.length → MultGhCuts exCtx exGrid mi gi m gh →
      leftTypes exCtx (fun e => PassesGh exCtx.bins FV.ge gh e ∧ FV.ge e.mult m = true) = {"proton"} := by
    intro mi gi m gh hgi h
    obtain ⟨fill, ghT, h1, h2, h3, rfl⟩ := h
    rw [exCtx_max] at h1
    cases h1
    unfold ghGrid at h3
    have hc := percentileCuts_few (E := exCtx.bins) exCtx_wellFormed.incr _ _ _ _ _ _ (by
      rw [List.length_map]
      have : (List.filter (fun e : Ev => FV.ge e.mult m) exCtx.signal.rows).length ≤ 2 := (List.length_filter_le _ _)
      unfold minEventsDefault
      omega) _ h3
    have hcol : (cutColumn ghT gi).cut = [.fin 1, .fin 1] := by
      simp only [exGrid, List.length_cons, List.length_nil] at hgi
      unfold cutColumn
      rw [hc]
      simp only [exCtx, exGrid, List.length_cons, List.length_nil]
      have : gi = 0 ∨ gi = 1 := by omega
      rcases this with rfl | rfl <;> rfl
    have hm : m = .fin 2 ∨ m = .fin 4 := by
      have := List.mem_of_getElem? h2
      simpa [exGrid] using this
    rw [hcol]
    ext p
    simp only [leftTypes, Set.mem_setOf_eq, Set.mem_singleton_iff]
    constructor
    · rintro ⟨e, he, ⟨⟨i, x, h4, h5, h6⟩, -⟩, -, -, rfl⟩
      have hx : x = .fin 1 := by
        have := List.mem_of_getElem? h5
        simpa using this
      subst hx
      simp only [exCtx, List.mem_cons, List.not_mem_nil, or_false] at he
      rcases he with rfl | rfl
      · rfl
      · norm_num [FV.ge, FV.le_fin] at h6
    · rintro rfl
      refine ⟨⟨.fin 1, .nan, .fin 0, .fin 1, .fin 4, 1, "proton"⟩, by simp [exCtx], ⟨⟨0, .fin 1, ?_, rfl, ?_⟩, ?_⟩, ?_, ?_, rfl⟩
      · exact ⟨by simp [exCtx], by norm_num [FV.le_fin, exCtx], by norm_num [FV.lt_fin, exCtx]⟩
      · norm_num [FV.ge, FV.le_fin]
      · rcases hm with rfl | rfl <;> norm_num [FV.ge, FV.le_fin]
      · norm_num [FV.ge, FV.le_fin, exCtx]
      · norm_num [FV.lt_fin, exCtx]
  intro _ mi gi m gh mi' gi' m' gh' h1 h2 h3 h4
  rw [key mi gi m gh h1 h3, key mi' gi' m' gh' h2 h4]

theorem exCtx_sameTypesGh (op : FV ℝ → FV ℝ → Bool) : SameTypesGh exCtx [1 / 2, 1] op := by
  intro _ j j' cuts cuts' hj hj' h h'
  have key : ∀ j cuts, j < [1 / 2, (1 : ℝ)].length → GhCuts exCtx [1 / 2, 1] op j cuts →
      ∃ setup, ghScanSetup exCtx [1 / 2, 1] op = .ok setup ∧ cuts = [setup.2, setup.2] := by
    intro j cuts hj h
    obtain ⟨setup, grid, h1, h2, rfl⟩ := h
    refine ⟨setup, h1, ?_⟩
    have hl : setup.1.length = 2 := by
      unfold ghScanSetup at h1
      repeat' split at h1
      all_goals first | (cases h1; rfl) | exact absurd h1 (by simp)
    have hc := percentileCuts_few (E := exCtx.bins) exCtx_wellFormed.incr _ _ _ _ _ _ (by simp [exCtx]) _ h2
    unfold cutColumn
    rw [hc]
    simp only [exCtx, List.length_cons, List.length_nil]
    obtain ⟨a, b, hab⟩ := List.length_eq_two.mp hl
    rw [hab]
    have : j = 0 ∨ j = 1 := by simp at hj; omega
    rcases this with rfl | rfl <;> rfl
  obtain ⟨s1, e1, e2⟩ := key j cuts hj h
  obtain ⟨s2, f1, f2⟩ := key j' cuts' hj' h'
  rw [e1] at f1
  cases f1
  rw [e2, f2]

/-- `optimize_cuts` succeeds on the example and its result satisfies C24 and C25. -/
example : ∃ out, optimizeCuts exCtx exGrid = .ok out ∧
    (∃ T, reapply exCtx out.mult out.theta out.gh = .ok T ∧ ∀ i < 2, ∃ r, Cell out.sens "relative_sensitivity" i r ∧
      Cell T "relative_sensitivity" i r) ∧
    ∀ i < 2, ∃ rels : List (FV ℝ), rels.length = 8 := by
  obtain ⟨out, h⟩ := C79_optimize_cuts_succeeds exCtx_wellFormed exGrid (by simp [exGrid]) (by simp [exGrid]) (by simp [exGrid])
    (by intro x hx; simp only [exGrid, List.mem_cons, List.not_mem_nil, or_false] at hx; rcases hx with rfl | rfl <;> norm_num)
    (by intro x hx; simp only [exGrid, List.mem_cons, List.not_mem_nil, or_false] at hx; rcases hx with rfl | rfl <;> norm_num) exCtx_sameTypes
    exCtx_insideMult
  have hs : NoWeighted exCtx.signal := exCtx_wellFormed.sigParticle
  have hb : NoWeighted exCtx.background := exCtx_wellFormed.bgParticle
  refine ⟨out, h, C25_optimize_cuts_reapply exCtx_wellFormed.bins exCtx_wellFormed.incr hs hb exGrid out h, ?_⟩
  intro i hi
  obtain ⟨rels, hl, -⟩ := C24_optimize_cuts exCtx_wellFormed.bins exCtx_wellFormed.incr hs hb exGrid out h i hi
  exact ⟨rels, by rw [hl]; rfl⟩

/-- `optimize_gh_cut` succeeds on the example and its result satisfies C23 and C25. -/
example : ∃ out, optimizeGhCut exCtx [1 / 2, 1] (asTable exCtx.bins [.fin 1, .fin (1 / 2)]) FV.ge = .ok out ∧
    (∃ T, reapplyGh exCtx (asTable exCtx.bins [.fin 1, .fin (1 / 2)]) FV.ge out.gh = .ok T ∧
      ∀ i < 2, ∃ r, Cell out.sens "relative_sensitivity" i r ∧ Cell T "relative_sensitivity" i r) ∧
    ∀ i < 2, ∃ (j : ℕ) (r : FV ℝ), Cell out.sens "relative_sensitivity" i r ∧ j < 2 := by
  obtain ⟨out, h⟩ := C79_optimize_gh_cut_succeeds exCtx_wellFormed [1 / 2, 1] (by simp)
    (by intro x hx; simp only [List.mem_cons, List.not_mem_nil, or_false] at hx; rcases hx with rfl | rfl <;> norm_num)
    (asTable exCtx.bins [.fin 1, .fin (1 / 2)]) FV.ge exCtx.bins exCtx_wellFormed.incr (by simp [exCtx]) rfl rfl rfl (exCtx_sameTypesGh _)
    exCtx_inside
  have hs : NoWeighted exCtx.signal := exCtx_wellFormed.sigParticle
  have hb : NoWeighted exCtx.background := exCtx_wellFormed.bgParticle
  refine ⟨out, h, C25_optimize_gh_cut_reapply exCtx_wellFormed.bins exCtx_wellFormed.incr hs hb _ _ _ out h, ?_⟩
  intro i hi
  obtain ⟨cuts, tables, -, h2⟩ := C23_optimize_gh_cut exCtx_wellFormed.bins exCtx_wellFormed.incr hs hb _ _ _ out h
  obtain ⟨rels, hl, -, j, r, v, e, q1, q2, q3, -⟩ := h2 i hi
  exact ⟨j, r, q3, by have := q1.inRange; rw [hl] at this; exact this⟩

end Pyirf.CutOpt
