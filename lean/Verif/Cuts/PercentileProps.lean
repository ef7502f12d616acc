import Verif.Cuts.EvalProps

/-!
# Properties C08, C09, C10: percentile cuts
-/
set_option linter.unusedSectionVars false
set_option linter.unusedSimpArgs false

namespace Pyirf.Cuts
open Pyirf Pyirf.Binning
variable {K : Type*} [Field K] [LinearOrder K] [IsStrictOrderedRing K] [FloorRing K]

/-! ## Specification -/

/-- `v` is the `p`-th percentile of the data `xs` (linear interpolation): in the sorted data, `v` sits at the
fractional position `(n-1)*p/100`, written as `i + f` with `0 <= f < 1`. -/
def IsPercentile (xs : List K) (p v : K) : Prop :=
  ∃ s : List K, s.Perm xs ∧ s.Pairwise (· ≤ ·) ∧ ∃ (i : ℕ) (f : K), 0 ≤ f ∧ f < 1 ∧
    (i : K) + f = ((xs.length : K) - 1) * (p / 100) ∧
    ∃ hi : i < s.length, v = s[i] + f * (s.getD (i + 1) s[i] - s[i])

/-- The events whose bin value lies in the half-open bin `i`. -/
def eventsIn (bins : List (FV K)) (i : ℕ) (evs : List (FV K × FV K)) : List (FV K × FV K) :=
  evs.filter fun e => decide (InBin bins i e.2)

/-- The finite values among some events. -/
def goodValues (evs : List (FV K × FV K)) : List K :=
  evs.filterMap fun e => match e.1 with | .fin x => some x | _ => none

/-- The values of these events are numbers or NaN, none is infinite. -/
def FiniteOrNan (evs : List (FV K × FV K)) : Prop := ∀ e ∈ evs, e.1 ≠ .ninf ∧ e.1 ≠ .pinf

/-- Clipping a number to an optional lower and an optional upper bound. -/
def clamp (lo hi : Option K) (v : K) : K :=
  let w := match lo with | some m => max v m | none => v
  match hi with | some m => min w m | none => w

/-! ## Lemmas -/

theorem isPercentile_of_quantileSorted {xs : List K} (hx : xs ≠ []) {p : K} (h0 : 0 ≤ p) (h1 : p ≤ 100) :
    IsPercentile xs p (Np.quantileSorted (xs.insertionSort (· ≤ ·)) (p / 100)) := by
  have q0 : (0:K) ≤ p / 100 := by positivity
  have q1 : p / 100 ≤ 1 := by rw [div_le_one (by norm_num)]; exact h1
  set s := xs.insertionSort (· ≤ ·) with hs
  have hperm : s.Perm xs := List.perm_insertionSort _ _
  have hlen : s.length = xs.length := hperm.length_eq
  have hn : s ≠ [] := by
    intro h; apply hx; rw [h] at hperm; exact List.perm_nil.mp hperm.symm
  obtain ⟨a1, a2, a3⟩ := Np.quantile_index hn q0 q1
  have hl : 0 < s.length := List.length_pos_iff.mpr hn
  set i := ⌊((s.length : K) - 1) * (p / 100)⌋.toNat with hi
  have hil : i < s.length := by omega
  refine ⟨s, hperm, List.pairwise_insertionSort _ _, i, ((s.length : K) - 1) * (p / 100) - i, by linarith,
    by linarith, by rw [← hlen]; ring, hil, ?_⟩
  have e : Np.quantileSorted s (p / 100) = s.getD i 0 + (s.getD (min (i + 1) (s.length - 1)) 0 - s.getD i 0) *
      (((s.length : K) - 1) * (p / 100) - i) := rfl
  have e0 : s.getD i 0 = s[i] := by simp [List.getD_eq_getElem?_getD, hil]
  have e1 : s.getD (min (i + 1) (s.length - 1)) 0 = s.getD (i + 1) s[i] := by
    rcases Nat.lt_or_ge (i + 1) s.length with h | h
    · rw [Nat.min_eq_left (by omega)]
      simp [List.getD_eq_getElem?_getD, h]
    · have : min (i + 1) (s.length - 1) = i := by omega
      rw [this, e0]
      simp [List.getD_eq_getElem?_getD, h]
  rw [e, e0, e1]; ring

/-- the percentile is unique, so the specification determines it -/
theorem isPercentile_unique {xs : List K} {p v w : K} (hv : IsPercentile xs p v) (hw : IsPercentile xs p w) :
    v = w := by
  obtain ⟨s, s1, s2, i, f, f0, f1, fe, hi, rfl⟩ := hv
  obtain ⟨s', s1', s2', i', f', f0', f1', fe', hi', rfl⟩ := hw
  have hs : s = s' := List.Perm.eq_of_pairwise' (r := (· ≤ ·)) s2 s2' (s1.trans s1'.symm)
  subst hs
  have hii : i = i' := by
    have h1 : (i : K) < i' + 1 := by linarith
    have h2 : (i' : K) < i + 1 := by linarith
    have h1 : i < i' + 1 := by exact_mod_cast h1
    have h2 : i' < i + 1 := by exact_mod_cast h2
    omega
  subst hii
  have : f = f' := by linarith
  rw [this]

theorem dropNan_group (bins : List (FV K)) (evs : List (FV K × FV K)) (i : ℕ) :
    Np.dropNan (group bins evs i) = goodValues (eventsIn bins i evs) := by
  unfold Np.dropNan group goodValues eventsIn
  rw [List.filterMap_map]
  rfl

theorem length_group (bins : List (FV K)) (evs : List (FV K × FV K)) (i : ℕ) :
    (group bins evs i).length = (eventsIn bins i evs).length := by
  simp [group, eventsIn]

/-- value of `nanpercentile` for a legal percentile -/
def pctVal (p : K) (g : List (FV K)) : FV K := Np.quantileVal g (p / 100)

theorem pctVal_noInf {p : K} (h0 : 0 ≤ p) (h1 : p ≤ 100) {g : List (FV K)} (h : Np.NoInf g) : pctVal p g =
    if Np.dropNan g = [] then .nan else .fin (Np.quantileSorted ((Np.dropNan g).insertionSort (· ≤ ·)) (p / 100)) :=
  Np.quantileVal_noInf h (by positivity) (by rw [div_le_one (by norm_num)]; exact h1)

theorem noInf_group {bins : List (FV K)} {evs : List (FV K × FV K)} {i : ℕ} (h : FiniteOrNan (eventsIn bins i evs)) :
    Np.NoInf (group bins evs i) := by
  intro v hv
  unfold group at hv
  obtain ⟨e, he, rfl⟩ := List.mem_map.mp hv
  exact h e he

theorem nanpercentile_eq {p : K} (h0 : 0 ≤ p) (h1 : p ≤ 100) (g : List (FV K)) :
    Np.nanpercentile g p = .ok (pctVal p g) := by
  have q0 : (0:K) ≤ p / 100 := by positivity
  have q1 : p / 100 ≤ 1 := by rw [div_le_one (by norm_num)]; exact h1
  unfold Np.nanpercentile Np.nanquantile pctVal
  rw [if_pos ⟨q0, q1⟩]

theorem clipOpt_fin (lo hi : Option K) (v : K) :
    clipOpt (lo.map FV.fin) (hi.map FV.fin) (FV.fin v) = FV.fin (clamp lo hi v) := by
  cases lo <;> cases hi <;> simp [clipOpt, clamp, FV.maximum, FV.minimum] <;> 
    (repeat' split) <;> simp_all [max_def, min_def] <;> (try split) <;> first | rfl | order

theorem percentileCut_eq (evs : List (FV K × FV K)) {bins : List (FV K)} (fill : FV K) {p : K}
    (minV maxV : Option (FV K)) (minEvents : ℤ) (h : Increasing bins) (hl : 0 < bins.length) (h0 : 0 ≤ p)
    (h1 : p ≤ 100) (hin : SomeInside bins evs) :
    percentileCut evs bins fill p minV maxV minEvents = .ok
      ⟨bins.dropLast, bins.tail, binCenter bins,
        (List.range (bins.length - 1)).map (fun i => (group bins evs i).length),
        (List.range (bins.length - 1)).map (fun i =>
          if group bins evs i = [] ∨ ((group bins evs i).length : ℤ) < minEvents then fill
          else clipOpt minV maxV (pctVal p (group bins evs i)))⟩ := by
  unfold percentileCut
  exact cutTable_eq _ (pctVal p) _ fill minEvents evs h hl (nanpercentile_eq h0 h1) hin

theorem percentileCut_none (evs : List (FV K × FV K)) {bins : List (FV K)} (fill : FV K) (p : K)
    (minV maxV : Option (FV K)) (minEvents : ℤ) (h : Increasing bins) (hl : 0 < bins.length) (hin : ¬ SomeInside bins evs) :
    percentileCut evs bins fill p minV maxV minEvents = .error .indexError :=
  cutTable_none _ _ fill minEvents evs h hl hin

theorem someInside_of_ok {evs : List (FV K × FV K)} {bins : List (FV K)} {fill : FV K} {p : K}
    {minV maxV : Option (FV K)} {minEvents : ℤ} (h : Increasing bins) (hl : 0 < bins.length) {t : CutTable K (FV K)}
    (ht : percentileCut evs bins fill p minV maxV minEvents = .ok t) : SomeInside bins evs := by
  by_contra hin
  rw [percentileCut_none evs fill p minV maxV minEvents h hl hin] at ht
  exact absurd ht (by simp)

theorem percentileCut_of_ok (evs : List (FV K × FV K)) {bins : List (FV K)} (fill : FV K) {p : K}
    (minV maxV : Option (FV K)) (minEvents : ℤ) (h : Increasing bins) (hl : 0 < bins.length) (h0 : 0 ≤ p)
    (h1 : p ≤ 100) {t : CutTable K (FV K)} (ht : percentileCut evs bins fill p minV maxV minEvents = .ok t) :
    (⟨bins.dropLast, bins.tail, binCenter bins,
        (List.range (bins.length - 1)).map (fun i => (group bins evs i).length),
        (List.range (bins.length - 1)).map (fun i =>
          if group bins evs i = [] ∨ ((group bins evs i).length : ℤ) < minEvents then fill
          else clipOpt minV maxV (pctVal p (group bins evs i)))⟩ : CutTable K (FV K)) = t := by
  rw [percentileCut_eq evs fill minV maxV minEvents h hl h0 h1 (someInside_of_ok h hl ht)] at ht
  exact Except.ok.inj ht

/-! ## C08 -/

/-- **C08** Contents of the cut table. For increasing edges, a percentile in [0, 100] and at least one event in some bin the call succeeds; the edges
of row `i` are those of bin `i`, `n_events` counts the events whose bin value lies in it; too few events (or none)
give the fill value; otherwise, if none of the bin's values is infinite, the cut is the percentile of the non-NaN ones, clipped, and
NaN if there is no such value. -/
theorem C08_table (evs : List (FV K × FV K)) (bins : List (FV K)) (fill : FV K) (p : K) (lo hi : Option K)
    (minEvents : ℤ) (hb : Increasing bins) (hl : 0 < bins.length) (h0 : 0 ≤ p) (h1 : p ≤ 100)
    (hin : ∃ e ∈ evs, ∃ i, InBin bins i e.2) :
    ∃ t, percentileCut evs bins fill p (lo.map FV.fin) (hi.map FV.fin) minEvents = .ok t ∧
      t.low = bins.dropLast ∧ t.high = bins.tail ∧
      ∃ (hn : t.nEvents.length = bins.length - 1) (hc : t.cut.length = bins.length - 1),
      ∀ (i : ℕ) (hi' : i < bins.length - 1),
        t.nEvents[i] = (eventsIn bins i evs).length ∧
        ((t.nEvents[i] = 0 ∨ (t.nEvents[i] : ℤ) < minEvents) → t.cut[i] = fill) ∧
        (0 < t.nEvents[i] → minEvents ≤ t.nEvents[i] → FiniteOrNan (eventsIn bins i evs) →
          (goodValues (eventsIn bins i evs) = [] → t.cut[i] = .nan) ∧
          (∀ v, goodValues (eventsIn bins i evs) ≠ [] → IsPercentile (goodValues (eventsIn bins i evs)) p v →
            t.cut[i] = .fin (clamp lo hi v))) := by
  refine ⟨_, percentileCut_eq evs fill _ _ minEvents hb hl h0 h1 hin, rfl, rfl, by simp, by simp, ?_⟩
  intro i hi'
  simp only [List.getElem_map, List.getElem_range, length_group, ← List.length_eq_zero_iff]
  refine ⟨trivial, ?_, ?_⟩
  · rintro h; rw [if_pos (by exact_mod_cast h)]
  · intro hp hm hfn
    rw [if_neg (by omega)]
    rw [pctVal_noInf h0 h1 (noInf_group hfn), dropNan_group]
    refine ⟨?_, ?_⟩
    · intro hg
      rw [if_pos (by simpa using hg)]
      cases lo <;> cases hi <;> simp [clipOpt, FV.maximum, FV.minimum]
    · intro v hg hv
      rw [if_neg hg, isPercentile_unique hv (isPercentile_of_quantileSorted hg h0 h1)]
      exact clipOpt_fin lo hi _

theorem sortNonNan_sorted (g : List (FV K)) : (Np.sortNonNan g).Pairwise fun a b => FV.le a b = true := by
  unfold Np.sortNonNan
  rw [List.pairwise_append, List.pairwise_append]
  refine ⟨⟨?_, ?_, ?_⟩, ?_, ?_⟩
  · rw [List.pairwise_iff_forall_sublist]
    intro a b hs
    have ha := List.mem_filter.mp (hs.subset (by simp : a ∈ [a, b]))
    have hb := List.mem_filter.mp (hs.subset (by simp : b ∈ [a, b]))
    cases a <;> cases b <;> simp_all [FV.le]
  · refine List.Pairwise.map _ ?_ (List.pairwise_insertionSort (· ≤ ·) (Np.dropNan g))
    intro a b h; simpa [FV.le] using h
  · intro a ha b hb
    have ha := (List.mem_filter.mp ha).2
    obtain ⟨x, -, rfl⟩ := List.mem_map.mp hb
    cases a <;> simp_all [FV.le]
  · rw [List.pairwise_iff_forall_sublist]
    intro a b hs
    have ha := List.mem_filter.mp (hs.subset (by simp : a ∈ [a, b]))
    have hb := List.mem_filter.mp (hs.subset (by simp : b ∈ [a, b]))
    cases a <;> cases b <;> simp_all [FV.le]
  · intro a ha b hb
    have hb := (List.mem_filter.mp hb).2
    rcases List.mem_append.mp ha with ha | ha
    · have ha := (List.mem_filter.mp ha).2
      cases a <;> cases b <;> simp_all [FV.le]
    · obtain ⟨x, -, rfl⟩ := List.mem_map.mp ha
      cases b <;> simp_all [FV.le]

theorem sortNonNan_perm_filter (g : List (FV K)) : (Np.sortNonNan g).Perm (g.filter fun v => !v.isNan) := by
  have h0 : (Np.sortNonNan g).Perm (g.filter (fun | .ninf => true | _ => false) ++ (Np.dropNan g).map FV.fin ++
      g.filter (fun | .pinf => true | _ => false)) :=
    (((List.perm_insertionSort (· ≤ ·) (Np.dropNan g)).map FV.fin).append_left _).append_right _
  refine h0.trans ?_
  clear h0
  induction g with
  | nil => exact List.Perm.refl _
  | cons v g ih =>
    cases v with
    | nan => simpa [Np.dropNan, FV.isNan] using ih
    | ninf => simpa [Np.dropNan, FV.isNan] using ih
    | fin x =>
      simp only [Np.dropNan, FV.isNan, List.filter_cons, List.filterMap_cons, List.map_cons, Bool.not_false, if_true,
        Bool.false_eq_true, if_false] at ih ⊢
      refine List.Perm.trans ?_ (ih.cons _)
      rw [List.append_assoc, List.append_assoc]
      exact List.perm_middle
    | pinf =>
      simp only [Np.dropNan, FV.isNan, List.filter_cons, List.filterMap_cons, Bool.not_false, if_true,
        Bool.false_eq_true, if_false] at ih ⊢
      exact List.perm_middle.trans (ih.cons _)

/-- **C08** (infinite values) Infinite values take part: if in the sorted non-NaN values of the bin the two neighbours `a`, `b` of the fractional position
`i' + f = (n-1)*p/100` are finite, the cut is `a + f*(b - a)`, clipped. -/
theorem C08_infinite_values (evs : List (FV K × FV K)) (bins : List (FV K)) (fill : FV K) (p : K) (lo hi : Option K)
    (minEvents : ℤ) (hb : Increasing bins) (hl : 0 < bins.length) (h0 : 0 ≤ p) (h1 : p ≤ 100) (t : CutTable K (FV K))
    (ht : percentileCut evs bins fill p (lo.map FV.fin) (hi.map FV.fin) minEvents = .ok t)
    (i : ℕ) (hi' : i < t.cut.length) (hev : minEvents ≤ (eventsIn bins i evs).length)
    (s : List (FV K)) (hperm : s.Perm (((eventsIn bins i evs).map Prod.fst).filter fun v => !v.isNan))
    (hsort : s.Pairwise fun a b => FV.le a b = true) (k : ℕ) (f a b : K) (hf0 : 0 ≤ f) (hf1 : f < 1)
    (hk : (k : K) + f = ((s.length : K) - 1) * (p / 100)) (ha : s[k]? = some (.fin a)) (hb' : s[min (k + 1) (s.length - 1)]? = some (.fin b)) :
    t.cut[i] = .fin (clamp lo hi (a + f * (b - a))) := by
  have hT := percentileCut_of_ok evs fill _ _ minEvents hb hl h0 h1 ht
  obtain rfl := hT
  have hs : s = Np.sortNonNan (group bins evs i) := by
    have hp2 := hperm.trans (sortNonNan_perm_filter (group bins evs i)).symm
    have anti : ∀ a b : FV K, a ∈ s → b ∈ s → FV.le a b = true → FV.le b a = true → a = b :=
      fun a b _ _ h1 h2 => FV.le_antisymm' h1 h2
    exact hp2.eq_of_pairwise (le := fun a b => FV.le a b = true) (fun a b ha hb => FV.le_antisymm') hsort (sortNonNan_sorted _)
  have hne : group bins evs i ≠ [] := by
    intro h; rw [h] at hs; rw [hs] at ha; simp [Np.sortNonNan, Np.dropNan] at ha
  simp only [List.getElem_map, List.getElem_range]
  rw [if_neg (by rw [length_group]; push Not; exact ⟨hne, hev⟩)]
  have hsne : s ≠ [] := by intro h; rw [h] at ha; simp at ha
  have hfl : ⌊((s.length : K) - 1) * (p / 100)⌋ = (k : ℤ) := by
    rw [Int.floor_eq_iff, ← hk]; push_cast; constructor <;> linarith
  have : pctVal p (group bins evs i) = .fin (a + f * (b - a)) := by
    unfold pctVal Np.quantileVal
    rw [← hs]
    simp only [if_neg hsne, hfl, Int.toNat_natCast, List.getD_eq_getElem?_getD, ha, hb', Option.getD_some, Np.lerp]
    congr 1
    rw [← hk]; ring
  rw [this]
  exact clipOpt_fin lo hi _

/-- **C08** With a list of percentiles, the `j`-th cut of row `i` is the cut the single-percentile call with
percentile `j` gives in row `i` (and `low`, `high`, `n_events` agree). -/
theorem C08_several_percentiles (evs : List (FV K × FV K)) (bins : List (FV K)) (fill : FV K) (ps : List K)
    (minV maxV : Option (FV K)) (minEvents : ℤ) (hb : Increasing bins) (hl : 0 < bins.length)
    (hps : ∀ p ∈ ps, 0 ≤ p ∧ p ≤ 100) (hin : ∃ e ∈ evs, ∃ i, InBin bins i e.2) :
    ∃ t, percentileCuts evs bins fill ps minV maxV minEvents = .ok t ∧
      ∀ (j : ℕ) (hj : j < ps.length), ∃ tj, percentileCut evs bins fill ps[j] minV maxV minEvents = .ok tj ∧
        t.low = tj.low ∧ t.high = tj.high ∧ t.nEvents = tj.nEvents ∧
        t.cut.map (fun row => row[j]?) = tj.cut.map some := by
  have hm : ∀ g : List (FV K), (ps.mapM fun p => Np.nanpercentile g p) = .ok (ps.map fun p => pctVal p g) :=
    fun g => mapM_ok _ (fun p => pctVal p g) _ (fun p hp => nanpercentile_eq (hps p hp).1 (hps p hp).2 g)
  refine ⟨_, cutTable_eq _ (fun g => ps.map fun p => pctVal p g) _ (ps.map fun _ => fill) minEvents evs hb hl hm hin, ?_⟩
  intro j hj
  have hpj := hps _ (List.getElem_mem hj)
  refine ⟨_, percentileCut_eq evs fill _ _ minEvents hb hl hpj.1 hpj.2 hin, rfl, rfl, rfl, ?_⟩
  simp only [List.map_map]
  apply List.map_congr_left
  intro i _
  simp only [Function.comp]
  split <;> simp [hj]

/-- **C08** (deviation) If no event lies in any of the bins (in particular without events) the call does not give a table of fill values:
grouping the empty table raises IndexError, for one percentile and for a list of them, whatever the other arguments. -/
theorem C08_no_event_in_bins (evs : List (FV K × FV K)) (bins : List (FV K)) (fill : FV K) (p : K) (ps : List K)
    (minV maxV : Option (FV K)) (minEvents : ℤ) (hb : Increasing bins) (hl : 0 < bins.length)
    (hin : ∀ e ∈ evs, ∀ i, ¬ InBin bins i e.2) :
    percentileCut evs bins fill p minV maxV minEvents = .error .indexError ∧
      percentileCuts evs bins fill ps minV maxV minEvents = .error .indexError := by
  have : ¬ SomeInside bins evs := by rintro ⟨e, he, i, h⟩; exact hin e he i h
  exact ⟨cutTable_none _ _ fill minEvents evs hb hl this, cutTable_none _ _ _ minEvents evs hb hl this⟩

/-! ## C09 -/

/-- the table's edges are the given bins -/
theorem wellFormed_table {C : Type*} {bins : List (FV K)} (hb : Increasing bins) (hl : 2 ≤ bins.length)
    (ce : List (FV K)) (ne : List ℕ) (cut : List C) (hc : cut.length = bins.length - 1) :
    WellFormed (⟨bins.dropLast, bins.tail, ce, ne, cut⟩ : CutTable K C) where
  pos := by simp; omega
  lenHigh := by simp
  lenCut := by simp [hc]
  contiguous := by
    intro i h
    simp only [List.length_dropLast] at h
    simp [List.getElem_tail, List.getElem_dropLast]
  incLow := by
    refine ⟨fun e he => hb.1 e (List.mem_of_mem_dropLast he), ?_⟩
    exact hb.2.sublist (List.dropLast_sublist _)
  incLast := by
    simp only [List.length_dropLast, List.getElem_dropLast, List.getElem_tail]
    exact hb.getElem_le (by omega) (by omega)

theorem rowContains_table {C : Type*} {bins : List (FV K)} (ce : List (FV K)) (ne : List ℕ) (cut : List C)
    (i : ℕ) (b : FV K) :
    RowContains (⟨bins.dropLast, bins.tail, ce, ne, cut⟩ : CutTable K C) i b ↔ InBin bins i b := by
  unfold RowContains InBin
  simp only [List.length_dropLast, List.length_tail, List.getElem_dropLast, List.getElem_tail]
  constructor
  · rintro ⟨h1, h2, h3, h4⟩; exact ⟨by omega, h3, h4⟩
  · rintro ⟨h1, h3, h4⟩; exact ⟨by omega, by omega, h3, h4⟩

theorem clipOpt_ge (minV : Option K) (v : K) : FV.le (.fin v) (clipOpt (minV.map FV.fin) none (.fin v)) = true := by
  have := clipOpt_fin minV none v
  simp only [Option.map_none] at this
  rw [this]
  cases minV <;> simp [clamp, FV.le]

theorem clipOpt_le (maxV : Option K) (v : K) : FV.le (clipOpt none (maxV.map FV.fin) (.fin v)) (.fin v) = true := by
  have := clipOpt_fin none maxV v
  simp only [Option.map_none] at this
  rw [this]
  cases maxV <;> simp [clamp, FV.le]

/-- Number of events of bin `i` that are flagged. -/
def keptInBin (bins : List (FV K)) (i : ℕ) (evs : List (FV K × FV K)) (flags : List Bool) : ℕ :=
  (evs.zip flags).countP fun e => decide (InBin bins i e.1.2) && e.2

theorem countP_good (s : List (FV K × FV K)) (pr : FV K → Bool) (pr' : K → Bool)
    (h : ∀ x, pr (.fin x) = pr' x) :
    (goodValues s).countP pr' ≤ s.countP (fun e => pr e.1) := by
  induction s with
  | nil => simp [goodValues]
  | cons e s ih =>
    unfold goodValues at ih ⊢
    rw [List.filterMap_cons, List.countP_cons]
    obtain ⟨v, b⟩ := e
    cases v with
    | fin x => simp only [List.countP_cons, h]; omega
    | nan => simp only []; omega
    | ninf => simp only []; omega
    | pinf => simp only []; omega

theorem kept_eq {bins : List (FV K)} (hb : Increasing bins) (hl : 2 ≤ bins.length) (ce : List (FV K)) (ne : List ℕ)
    (cut : List (FV K)) (hc : cut.length = bins.length - 1) (op : FV K → FV K → Bool) (evs : List (FV K × FV K))
    (i : ℕ) (hi : i < bins.length - 1) :
    ∃ flags, evaluateBinnedCut true (evs.map Prod.fst) (evs.map Prod.snd) ⟨bins.dropLast, bins.tail, ce, ne, cut⟩ op
        = .ok flags ∧ flags.length = evs.length ∧
      keptInBin bins i evs flags = (eventsIn bins i evs).countP (fun e => op e.1 (cut[i]'(by omega))) := by
  have hw := wellFormed_table hb hl ce ne cut hc
  refine ⟨_, evaluate_eq _ hw op _ _, by simp, ?_⟩
  have e1 : (evs.map Prod.fst).zip (evs.map Prod.snd) = evs := by
    rw [List.zip_map']
    simp
  rw [e1]
  unfold keptInBin eventsIn
  rw [List.countP_filter]
  have e2 : evs.zip (evs.map fun e => selects _ hw op e.1 e.2) = evs.map fun e => (e, selects _ hw op e.1 e.2) := by
    have := List.zip_map' (f := id) (g := fun e : FV K × FV K => selects _ hw op e.1 e.2) (l := evs)
    simpa using this
  rw [e2, List.countP_map]
  apply List.countP_congr
  intro e _
  simp only [Function.comp, Bool.and_eq_true, decide_eq_true_eq]
  constructor
  · rintro ⟨hin, hs⟩
    obtain ⟨j, hj, hj2, hop⟩ := (evalOne_ok _ hw op e.1 e.2).2.mp hs
    have : j = i := inBin_unique hb ((rowContains_table ce ne cut j e.2).mp hj2) hin
    subst this
    exact ⟨hop, hin⟩
  · rintro ⟨hop, hin⟩
    exact ⟨hin, (evalOne_ok _ hw op e.1 e.2).2.mpr ⟨i, by simp [hc]; omega,
      (rowContains_table ce ne cut i e.2).mpr hin, hop⟩⟩

theorem sortedGood {xs : List K} (hx : xs ≠ []) : xs.insertionSort (· ≤ ·) ≠ [] := by
  intro h
  have := (List.perm_insertionSort (· ≤ ·) xs)
  rw [h] at this
  exact hx (List.perm_nil.mp this.symm)

/-- **C09** Applying the cut of percentile `p` with `operator.le` to the events it was computed from keeps, in every
bin with enough events and `n >= 1` non-NaN values, at least `floor((n-1)*p/100) + 1` events, hence more than the
fraction `p/100` of `n - 1`. A lower clipping bound is allowed (it only loosens the cut). -/
theorem C09_le_keeps (evs : List (FV K × FV K)) (bins : List (FV K)) (fill : FV K) (p : K) (lo : Option K)
    (minEvents : ℤ) (hb : Increasing bins) (hl : 2 ≤ bins.length) (h0 : 0 ≤ p) (h1 : p ≤ 100)
    (t : CutTable K (FV K)) (ht : percentileCut evs bins fill p (lo.map FV.fin) none minEvents = .ok t)
    (i : ℕ) (hi : i < bins.length - 1) (hev : minEvents ≤ (eventsIn bins i evs).length)
    (hfn : FiniteOrNan (eventsIn bins i evs)) (hg : goodValues (eventsIn bins i evs) ≠ []) :
    ∃ flags, evaluateBinnedCut true (evs.map Prod.fst) (evs.map Prod.snd) t FV.le = .ok flags ∧
      ⌊(((goodValues (eventsIn bins i evs)).length : K) - 1) * (p / 100)⌋ + 1 ≤ (keptInBin bins i evs flags : ℤ) ∧
      (((goodValues (eventsIn bins i evs)).length : K) - 1) * (p / 100) < (keptInBin bins i evs flags : K) := by
  have hT := percentileCut_of_ok evs fill _ _ minEvents hb (by omega) h0 h1 ht
  obtain rfl := hT
  obtain ⟨flags, f1, f2, f3⟩ := kept_eq hb hl (binCenter bins) ((List.range (bins.length - 1)).map
    (fun i => (group bins evs i).length)) ((List.range (bins.length - 1)).map (fun i =>
          if group bins evs i = [] ∨ ((group bins evs i).length : ℤ) < minEvents then fill
          else clipOpt (lo.map FV.fin) none (pctVal p (group bins evs i)))) (by simp) FV.le evs i hi
  have key : ⌊(((goodValues (eventsIn bins i evs)).length : K) - 1) * (p / 100)⌋ + 1
      ≤ (keptInBin bins i evs flags : ℤ) := by
    rw [f3]
    have hne : group bins evs i ≠ [] := by
      intro h; apply hg; rw [← dropNan_group, h]; rfl
    simp only [List.getElem_map, List.getElem_range]
    rw [if_neg (by rw [length_group]; push Not; exact ⟨hne, hev⟩)]
    rw [pctVal_noInf h0 h1 (noInf_group hfn), dropNan_group, if_neg hg]
    set g := goodValues (eventsIn bins i evs) with hgdef
    have q0 : (0:K) ≤ p / 100 := by positivity
    have q1 : p / 100 ≤ 1 := by rw [div_le_one (by norm_num)]; exact h1
    set s := g.insertionSort (· ≤ ·) with hs
    have hperm : s.Perm g := List.perm_insertionSort _ _
    have hsne : s ≠ [] := sortedGood hg
    have hsp : s.Pairwise (· ≤ ·) := List.pairwise_insertionSort _ _
    obtain ⟨a1, a2, a3⟩ := Np.quantile_index hsne q0 q1
    have hlen : s.length = g.length := hperm.length_eq
    have hpos : 0 < s.length := List.length_pos_iff.mpr hsne
    have hq := (Np.quantileSorted_bounds hsp hsne q0 q1).1
    have hcount := Np.count_le_getD hsp (by omega) hq
    rw [hperm.countP_eq] at hcount
    have hle := countP_good (eventsIn bins i evs)
      (fun v => FV.le v (clipOpt (lo.map FV.fin) none (.fin (Np.quantileSorted s (p / 100)))))
      (fun x => FV.le (.fin x) (clipOpt (lo.map FV.fin) none (.fin (Np.quantileSorted s (p / 100))))) (fun _ => rfl)
    rw [← hgdef] at hle
    have hle2 : g.countP (fun x => decide (x ≤ Np.quantileSorted s (p / 100)))
        ≤ g.countP (fun x => FV.le (.fin x) (clipOpt (lo.map FV.fin) none (.fin (Np.quantileSorted s (p / 100))))) := by
      apply List.countP_mono_left
      intro x _ hx
      exact FV.le_trans' (b := .fin (Np.quantileSorted s (p / 100))) (by simpa [FV.le] using hx) (clipOpt_ge lo _)
    rw [← hlen]
    have := Int.toNat_le.mp (le_refl ⌊((s.length : K) - 1) * (p / 100)⌋.toNat)
    omega
  refine ⟨flags, f1, key, ?_⟩
  have h2 := Int.lt_floor_add_one ((((goodValues (eventsIn bins i evs)).length : K) - 1) * (p / 100))
  have h3 : ((⌊(((goodValues (eventsIn bins i evs)).length : K) - 1) * (p / 100)⌋ + 1 : ℤ) : K)
      ≤ ((keptInBin bins i evs flags : ℤ) : K) := Int.cast_le.mpr key
  push_cast at h3
  linarith

/-- **C09** The same for `operator.ge` (gammaness-like cuts, percentile `100*(1-efficiency)`): at least
`n - ceil((n-1)*p/100)` events are kept. An upper clipping bound is allowed. -/
theorem C09_ge_keeps (evs : List (FV K × FV K)) (bins : List (FV K)) (fill : FV K) (p : K) (hi' : Option K)
    (minEvents : ℤ) (hb : Increasing bins) (hl : 2 ≤ bins.length) (h0 : 0 ≤ p) (h1 : p ≤ 100)
    (t : CutTable K (FV K)) (ht : percentileCut evs bins fill p none (hi'.map FV.fin) minEvents = .ok t)
    (i : ℕ) (hi : i < bins.length - 1) (hev : minEvents ≤ (eventsIn bins i evs).length)
    (hfn : FiniteOrNan (eventsIn bins i evs)) (hg : goodValues (eventsIn bins i evs) ≠ []) :
    ∃ flags, evaluateBinnedCut true (evs.map Prod.fst) (evs.map Prod.snd) t FV.ge = .ok flags ∧
      ((goodValues (eventsIn bins i evs)).length : ℤ) -
        ⌈(((goodValues (eventsIn bins i evs)).length : K) - 1) * (p / 100)⌉ ≤ (keptInBin bins i evs flags : ℤ) := by
  have hT := percentileCut_of_ok evs fill _ _ minEvents hb (by omega) h0 h1 ht
  obtain rfl := hT
  obtain ⟨flags, f1, f2, f3⟩ := kept_eq hb hl (binCenter bins) ((List.range (bins.length - 1)).map
    (fun i => (group bins evs i).length)) ((List.range (bins.length - 1)).map (fun i =>
          if group bins evs i = [] ∨ ((group bins evs i).length : ℤ) < minEvents then fill
          else clipOpt none (hi'.map FV.fin) (pctVal p (group bins evs i)))) (by simp) FV.ge evs i hi
  refine ⟨flags, f1, ?_⟩
  rw [f3]
  have hne : group bins evs i ≠ [] := by
    intro h; apply hg; rw [← dropNan_group, h]; rfl
  simp only [List.getElem_map, List.getElem_range]
  rw [if_neg (by rw [length_group]; push Not; exact ⟨hne, hev⟩)]
  rw [pctVal_noInf h0 h1 (noInf_group hfn), dropNan_group, if_neg hg]
  set g := goodValues (eventsIn bins i evs) with hgdef
  have q0 : (0:K) ≤ p / 100 := by positivity
  have q1 : p / 100 ≤ 1 := by rw [div_le_one (by norm_num)]; exact h1
  set s := g.insertionSort (· ≤ ·) with hs
  have hperm : s.Perm g := List.perm_insertionSort _ _
  have hsne : s ≠ [] := sortedGood hg
  have hsp : s.Pairwise (· ≤ ·) := List.pairwise_insertionSort _ _
  have hlen : s.length = g.length := hperm.length_eq
  have hpos : 0 < s.length := List.length_pos_iff.mpr hsne
  have hl' : (0:K) ≤ (s.length : K) - 1 := by
    have : (1:K) ≤ (s.length : K) := by exact_mod_cast hpos
    linarith
  have hq := Np.quantileSorted_le_ceil hsp hsne q0 q1
  have hcl : ⌈((s.length : K) - 1) * (p / 100)⌉ ≤ ((s.length - 1 : ℕ) : ℤ) := by
    rw [Int.ceil_le]
    have : ((s.length - 1 : ℕ) : K) = (s.length : K) - 1 := by
      push_cast [show 1 ≤ s.length by omega]; ring
    rw [Int.cast_natCast, this]
    nlinarith
  have hc0 : 0 ≤ ⌈((s.length : K) - 1) * (p / 100)⌉ := Int.ceil_nonneg (mul_nonneg hl' q0)
  have hcount := Np.count_ge_getD hsp (by omega) hq
  rw [hperm.countP_eq] at hcount
  have hle := countP_good (eventsIn bins i evs)
    (fun v => FV.ge v (clipOpt none (hi'.map FV.fin) (.fin (Np.quantileSorted s (p / 100)))))
    (fun x => FV.ge (.fin x) (clipOpt none (hi'.map FV.fin) (.fin (Np.quantileSorted s (p / 100))))) (fun _ => rfl)
  rw [← hgdef] at hle
  have hle2 : g.countP (fun x => decide (Np.quantileSorted s (p / 100) ≤ x))
      ≤ g.countP (fun x => FV.ge (.fin x) (clipOpt none (hi'.map FV.fin) (.fin (Np.quantileSorted s (p / 100))))) := by
    apply List.countP_mono_left
    intro x _ hx
    exact FV.le_trans' (b := .fin (Np.quantileSorted s (p / 100))) (clipOpt_le hi' _) (by simpa [FV.le] using hx)
  rw [← hlen]
  omega

/-- **C09** Percentile 100 with `le` keeps all `n` non-NaN events of the bin, percentile 0 with `ge` likewise. -/
theorem C09_extremes_keep_all (evs : List (FV K × FV K)) (bins : List (FV K)) (fill : FV K)
    (minEvents : ℤ) (hb : Increasing bins) (hl : 2 ≤ bins.length) (t t' : CutTable K (FV K))
    (ht : percentileCut evs bins fill 100 none none minEvents = .ok t)
    (ht' : percentileCut evs bins fill 0 none none minEvents = .ok t')
    (i : ℕ) (hi : i < bins.length - 1) (hev : minEvents ≤ (eventsIn bins i evs).length)
    (hfn : FiniteOrNan (eventsIn bins i evs)) (hg : goodValues (eventsIn bins i evs) ≠ []) :
    (∃ flags, evaluateBinnedCut true (evs.map Prod.fst) (evs.map Prod.snd) t FV.le = .ok flags ∧
      (goodValues (eventsIn bins i evs)).length ≤ keptInBin bins i evs flags) ∧
    (∃ flags, evaluateBinnedCut true (evs.map Prod.fst) (evs.map Prod.snd) t' FV.ge = .ok flags ∧
      (goodValues (eventsIn bins i evs)).length ≤ keptInBin bins i evs flags) := by
  have hpos : 0 < (goodValues (eventsIn bins i evs)).length := List.length_pos_iff.mpr hg
  constructor
  · obtain ⟨fl, a, b, -⟩ := C09_le_keeps evs bins fill 100 none minEvents hb hl (by norm_num) le_rfl t ht i hi hev hfn hg
    refine ⟨fl, a, ?_⟩
    have e : (((goodValues (eventsIn bins i evs)).length : K) - 1) * (100 / 100)
        = (((goodValues (eventsIn bins i evs)).length - 1 : ℤ) : K) := by push_cast; ring
    rw [e, Int.floor_intCast] at b
    omega
  · obtain ⟨fl, a, b⟩ := C09_ge_keeps evs bins fill 0 none minEvents hb hl le_rfl (by norm_num) t' ht' i hi hev hfn hg
    refine ⟨fl, a, ?_⟩
    rw [show (((goodValues (eventsIn bins i evs)).length : K) - 1) * (0 / 100) = 0 by ring, Int.ceil_zero] at b
    omega

/-- **C09** The cut table does not depend on the order of the events. -/
theorem C09_order_independent (evs evs' : List (FV K × FV K)) (hperm : evs.Perm evs') (bins : List (FV K))
    (fill : FV K) (p : K) (minV maxV : Option (FV K)) (minEvents : ℤ) (hb : Increasing bins) (hl : 0 < bins.length)
    (h0 : 0 ≤ p) (h1 : p ≤ 100) :
    percentileCut evs bins fill p minV maxV minEvents = percentileCut evs' bins fill p minV maxV minEvents := by
  by_cases hin : SomeInside bins evs
  swap
  · have hin' : ¬ SomeInside bins evs' := by
      rintro ⟨e, he, i, h⟩; exact hin ⟨e, hperm.mem_iff.mpr he, i, h⟩
    rw [percentileCut_none evs fill p _ _ minEvents hb hl hin, percentileCut_none evs' fill p _ _ minEvents hb hl hin']
  have hin' : SomeInside bins evs' := by
    obtain ⟨e, he, i, h⟩ := hin; exact ⟨e, hperm.mem_iff.mp he, i, h⟩
  rw [percentileCut_eq evs fill _ _ minEvents hb hl h0 h1 hin, percentileCut_eq evs' fill _ _ minEvents hb hl h0 h1 hin']
  have hgp : ∀ i, (group bins evs i).Perm (group bins evs' i) := fun i => (hperm.filter _).map _
  have hv : ∀ i, pctVal p (group bins evs i) = pctVal p (group bins evs' i) := fun i => Np.quantileVal_perm (hgp i) (p / 100)
  have hnil : ∀ i, group bins evs i = [] ↔ group bins evs' i = [] := by
    intro i
    rw [← List.length_eq_zero_iff, ← List.length_eq_zero_iff, (hgp i).length_eq]
  congr 2
  · apply List.map_congr_left; intro i _; exact (hgp i).length_eq
  · apply List.map_congr_left; intro i _
    simp only [hv i, hnil i, (hgp i).length_eq]

theorem clamp_mono (lo hi : Option K) {v w : K} (h : v ≤ w) : clamp lo hi v ≤ clamp lo hi w := by
  cases lo <;> cases hi <;> simp only [clamp]
  · exact h
  · exact min_le_min_right _ h
  · exact max_le_max_right _ h
  · exact min_le_min_right _ (max_le_max_right _ h)

/-- **C09** A larger percentile gives a larger (or equal) cut in every row with a non-NaN value, and equal fill values
elsewhere. -/
theorem C09_monotone_in_percentile (evs : List (FV K × FV K)) (bins : List (FV K)) (fill : FV K) (p p' : K)
    (lo hi : Option K) (minEvents : ℤ) (hb : Increasing bins) (hl : 0 < bins.length)
    (h0 : 0 ≤ p) (hpp : p ≤ p') (h1 : p' ≤ 100) (t t' : CutTable K (FV K))
    (ht : percentileCut evs bins fill p (lo.map FV.fin) (hi.map FV.fin) minEvents = .ok t)
    (ht' : percentileCut evs bins fill p' (lo.map FV.fin) (hi.map FV.fin) minEvents = .ok t')
    (i : ℕ) (hi1 : i < t.cut.length) (hi2 : i < t'.cut.length) (hfn : FiniteOrNan (eventsIn bins i evs)) :
    t.cut[i] = t'.cut[i] ∨ FV.le t.cut[i] t'.cut[i] = true := by
  have hT := percentileCut_of_ok evs fill _ _ minEvents hb hl h0 (le_trans hpp h1) ht
  have hT' := percentileCut_of_ok evs fill _ _ minEvents hb hl (le_trans h0 hpp) h1 ht'
  obtain rfl := hT
  obtain rfl := hT'
  simp only [List.getElem_map, List.getElem_range]
  split
  · exact Or.inl rfl
  · rw [pctVal_noInf h0 (hpp.trans h1) (noInf_group hfn), pctVal_noInf (h0.trans hpp) h1 (noInf_group hfn)]
    split
    · exact Or.inl rfl
    · rename_i hg
      right
      rw [clipOpt_fin, clipOpt_fin]
      simp only [FV.le, decide_eq_true_eq]
      apply clamp_mono
      refine Np.quantileSorted_mono (List.pairwise_insertionSort _ _) (sortedGood hg) (by positivity) ?_ ?_
      · exact div_le_div_of_nonneg_right hpp (by norm_num)
      · rw [div_le_one (by norm_num)]; exact h1

/-- **C09** A percentile lies between two of the data values: not below all, not above all of them. -/
theorem C09_between_data (xs : List K) (p v : K) (hv : IsPercentile xs p v) :
    (∃ a ∈ xs, a ≤ v) ∧ (∃ b ∈ xs, v ≤ b) := by
  obtain ⟨s, s1, s2, i, f, f0, f1, fe, hi, rfl⟩ := hv
  have hstep : s[i] ≤ s.getD (i + 1) s[i] := by
    rcases Nat.lt_or_ge (i + 1) s.length with h | h
    · simp only [List.getD_eq_getElem?_getD, List.getElem?_eq_getElem h, Option.getD_some]
      exact List.pairwise_iff_getElem.mp s2 i (i + 1) hi h (by omega)
    · simp [List.getD_eq_getElem?_getD, h]
  refine ⟨⟨s[i], s1.mem_iff.mp (List.getElem_mem hi), by nlinarith⟩, s.getD (i + 1) s[i], ?_, by nlinarith⟩
  rcases Nat.lt_or_ge (i + 1) s.length with h | h
  · simp only [List.getD_eq_getElem?_getD, List.getElem?_eq_getElem h, Option.getD_some]
    exact s1.mem_iff.mp (List.getElem_mem h)
  · simp only [List.getD_eq_getElem?_getD, List.getElem?_eq_none h, Option.getD_none]
    exact s1.mem_iff.mp (List.getElem_mem hi)

/-! ## C10 -/

/-- **C10** Every cut computed from a bin with enough events (at least `min_events` and at least one) and a non-NaN
value respects the given bounds `min_value <= max_value`; each bound may also be given alone. -/
theorem C10_clipped (evs : List (FV K × FV K)) (bins : List (FV K)) (fill : FV K) (p : K) (lo hi : Option K)
    (minEvents : ℤ) (hb : Increasing bins) (hl : 0 < bins.length) (h0 : 0 ≤ p) (h1 : p ≤ 100)
    (hlohi : ∀ a ∈ lo, ∀ b ∈ hi, a ≤ b) (t : CutTable K (FV K))
    (ht : percentileCut evs bins fill p (lo.map FV.fin) (hi.map FV.fin) minEvents = .ok t)
    (i : ℕ) (hi' : i < t.cut.length) (hev : minEvents ≤ (eventsIn bins i evs).length)
    (hfn : FiniteOrNan (eventsIn bins i evs)) (hg : goodValues (eventsIn bins i evs) ≠ []) :
    (∀ a ∈ lo, FV.le (.fin a) t.cut[i] = true) ∧ (∀ b ∈ hi, FV.le t.cut[i] (.fin b) = true) := by
  have hT := percentileCut_of_ok evs fill _ _ minEvents hb hl h0 h1 ht
  obtain rfl := hT
  have hne : group bins evs i ≠ [] := by
    intro h; apply hg; rw [← dropNan_group, h]; rfl
  simp only [List.getElem_map, List.getElem_range]
  rw [if_neg (by rw [length_group]; push Not; exact ⟨hne, hev⟩)]
  rw [pctVal_noInf h0 h1 (noInf_group hfn), dropNan_group, if_neg hg, clipOpt_fin]
  cases lo <;> cases hi <;> simp_all [clamp, FV.le]

/-- **C10** Fill values are not clipped: in a bin with fewer than `min_events` events the fill value appears
unchanged, whatever the bounds are. -/
theorem C10_fill_not_clipped (evs : List (FV K × FV K)) (bins : List (FV K)) (fill : FV K) (p : K)
    (minV maxV : Option (FV K)) (minEvents : ℤ) (hb : Increasing bins) (hl : 0 < bins.length) (h0 : 0 ≤ p)
    (h1 : p ≤ 100) (t : CutTable K (FV K)) (ht : percentileCut evs bins fill p minV maxV minEvents = .ok t)
    (i : ℕ) (hi' : i < t.cut.length) (hev : ((eventsIn bins i evs).length : ℤ) < minEvents) : t.cut[i] = fill := by
  have hT := percentileCut_of_ok evs fill _ _ minEvents hb hl h0 h1 ht
  obtain rfl := hT
  simp only [List.getElem_map, List.getElem_range]
  rw [if_pos (by rw [length_group]; exact Or.inr hev)]

/-! ## Concrete cases -/

section examples
/-- three events in bin [0,10), one in bin [10,20) -/
def exEvs : List (FV ℚ × FV ℚ) :=
  [(.fin 3, .fin 1), (.fin 1, .fin 2), (.fin 5, .fin 9), (.fin 7, .fin 12), (.nan, .fin 3), (.fin 100, .fin 25)]
/-- edges 0, 10, 20 -/
def exBins : List (FV ℚ) := [.fin 0, .fin 10, .fin 20]

example : Increasing exBins := by unfold Increasing exBins; decide +kernel
example : (percentileCut exEvs exBins (.fin 99) 75 none (some (.fin (35/10))) 2).toOption.map
    (fun t => (t.nEvents, t.cut)) = some ([4, 1], [.fin (35/10), .fin 99]) := by decide +kernel
example : (percentileCut exEvs exBins (.fin 99) 75 none none 2).toOption.map
    (fun t => (t.nEvents, t.cut)) = some ([4, 1], [.fin 4, .fin 99]) := by decide +kernel
example : goodValues (eventsIn exBins 0 exEvs) = [3, 1, 5] := by decide +kernel
/-- events below, on the last edge and without energy: none in a bin -/
example : percentileCut [(.fin 3, .fin (-1)), (.fin 1, .fin 20), (.fin 2, .nan)] exBins (.fin 99) 75 none none 2
    = .error .indexError := by rfl
/-- an infinite value counts: the 25 % point of 1, 3 and infinity is 2 -/
example : (percentileCut [(.pinf, .fin 1), (.fin 3, .fin 1), (.fin 1, .fin 1)] exBins (.fin 99) 25 none none 2).toOption.map
    (fun t => t.cut) = some [.fin 2, .fin 99] := by decide +kernel
end examples

end Pyirf.Cuts
