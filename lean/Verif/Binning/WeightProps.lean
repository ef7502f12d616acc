import Verif.Binning.WeightModel
import Verif.Binning.HistCols

/-!
# C142: events with NaN or infinite weights in histogram tables
-/
set_option linter.unusedSectionVars false
set_option linter.unusedSimpArgs false

namespace Pyirf.Binning
open Pyirf
variable {K : Type*} [Field K] [LinearOrder K] [IsStrictOrderedRing K]

/-! ## Specification -/

/-- The event lies below bin `i` (in an earlier bin or below all bins). -/
def BelowBin (edges : List (FV K)) (i : ℕ) (x : FV K) : Prop := ∃ h : i < edges.length, FV.lt x edges[i] = true

/-- Cell `i` of a column of a histogram table (NaN if there is none). -/
def WHistTable.cell (t : WHistTable K) (name : String) (i : ℕ) : FV K := ((t.cols name).getD []).getD i .nan

/-- The weights of the events with `P`. -/
def weightsOf (evs : List (WEvent K)) (P : WEvent K → Prop) [DecidablePred P] : List (FV K) := (evs.filter fun e => decide (P e)).map WEvent.weight

/-- The IEEE sum `s` of the floating point numbers `l`: NaN if one of them is NaN or if there are infinities of both signs, infinite if there are infinities of one sign, else the sum. -/
def IsSum (l : List (FV K)) (s : FV K) : Prop :=
  (.nan ∈ l ∨ (.pinf ∈ l ∧ .ninf ∈ l) → s = .nan) ∧
  (.nan ∉ l → .pinf ∈ l → .ninf ∉ l → s = .pinf) ∧
  (.nan ∉ l → .ninf ∈ l → .pinf ∉ l → s = .ninf) ∧
  (∀ r : List K, l = r.map FV.fin → s = .fin r.sum)

/-- The content of bin `i` for weights that may be NaN or infinite: NaN if an event below the bin has a weight that is not finite, otherwise the sum of the weights of the events in the bin. -/
def BinContent (edges : List (FV K)) (evs : List (WEvent K)) (i : ℕ) (s : FV K) : Prop :=
  ((∃ e ∈ evs, BelowBin edges i e.key ∧ e.weight.isFinite = false) → s = .nan) ∧
  ((∀ e ∈ evs, BelowBin edges i e.key → e.weight.isFinite = true) → IsSum (weightsOf evs fun e => InHistBin edges i e.key) s)

/-- The events with one particle type. -/
def ofType (evs : List (WEvent K)) (p : String) : List (WEvent K) := evs.filter fun e => e.particle = p

/-- No particle type is named `weighted` or is another type's name followed by `_weighted` (see C05). -/
def NoClashF (evs : List (WEvent K)) : Prop :=
  ∀ e ∈ evs, e.particle ≠ "weighted" ∧ ∀ e' ∈ evs, e.particle ≠ e'.particle ++ "_weighted"

/-! ## Lemmas -/

theorem fsum_cons (a : FV K) (l : List (FV K)) : fsum (a :: l) = a + fsum l := rfl

theorem fadd_assoc (a b c : FV K) : a + b + c = a + (b + c) := by
  cases a <;> cases b <;> cases c <;> first
    | rfl
    | (simp only [FV.fin_add_fin, add_assoc])

theorem fadd_comm (a b : FV K) : a + b = b + a := by
  cases a <;> cases b <;> first
    | rfl
    | (simp only [FV.fin_add_fin, add_comm])

theorem fzero_add (a : FV K) : (.fin 0 : FV K) + a = a := by
  cases a <;> first
    | rfl
    | (simp only [FV.fin_add_fin, zero_add])

theorem fsum_append (l l' : List (FV K)) : fsum (l ++ l') = fsum l + fsum l' := by
  induction l with
  | nil => exact (fzero_add _).symm
  | cons a l ih => rw [List.cons_append, fsum_cons, fsum_cons, ih, fadd_assoc]

/-- the order of the terms does not matter -/
theorem fsum_perm {l l' : List (FV K)} (h : l.Perm l') : fsum l = fsum l' := by
  induction h with
  | nil => rfl
  | cons a _ ih => rw [fsum_cons, fsum_cons, ih]
  | swap a b l => rw [fsum_cons, fsum_cons, fsum_cons, fsum_cons, ← fadd_assoc, ← fadd_assoc, fadd_comm b a]
  | trans _ _ h1 h2 => exact h1.trans h2

theorem all_fin {l : List (FV K)} (h1 : .nan ∉ l) (h2 : .pinf ∉ l) (h3 : .ninf ∉ l) : ∃ r : List K, l = r.map FV.fin := by
  induction l with
  | nil => exact ⟨[], rfl⟩
  | cons b l ih =>
    simp only [List.mem_cons, not_or] at h1 h2 h3
    obtain ⟨r, hr⟩ := ih h1.2 h2.2 h3.2
    cases b with
    | fin x => exact ⟨x :: r, by rw [hr]; rfl⟩
    | nan => exact absurd rfl h1.1
    | pinf => exact absurd rfl h2.1
    | ninf => exact absurd rfl h3.1

theorem fsum_isSum (l : List (FV K)) : IsSum l (fsum l) := by
  have hfin : ∀ r : List K, fsum (r.map FV.fin) = .fin r.sum := by
    intro r
    induction r with
    | nil => rfl
    | cons a r ih => rw [List.map_cons, fsum_cons, ih, FV.fin_add_fin, List.sum_cons]
  have hn : ∀ l : List (FV K), .nan ∈ l → fsum l = .nan := by
    intro l
    induction l with
    | nil => simp
    | cons a l ih =>
      intro h
      rw [fsum_cons]
      rcases List.mem_cons.mp h with rfl | h
      · exact FV.nan_add _
      · rw [ih h]; exact FV.add_nan _
  have hp : ∀ l : List (FV K), .nan ∉ l → .ninf ∉ l → fsum l = if (.pinf ∈ l) then .pinf else fsum l := by
    intro l
    induction l with
    | nil => simp
    | cons a l ih =>
      intro h1 h2
      simp only [List.mem_cons, not_or] at h1 h2
      have ih := ih h1.2 h2.2
      split
      · rename_i h
        rw [fsum_cons]
        by_cases hm : FV.pinf ∈ l
        · rw [if_pos hm] at ih
          rw [ih]
          cases a <;> first | rfl | exact absurd rfl h1.1 | exact absurd rfl h2.1
        · rcases List.mem_cons.mp h with rfl | h
          · have hall := all_fin h1.2 hm h2.2
            obtain ⟨r, hr⟩ := hall
            rw [hr, hfin]
            rfl
          · exact absurd h hm
      · rfl
  have hm : ∀ l : List (FV K), .nan ∉ l → .pinf ∉ l → fsum l = if (.ninf ∈ l) then .ninf else fsum l := by
    intro l
    induction l with
    | nil => simp
    | cons a l ih =>
      intro h1 h2
      simp only [List.mem_cons, not_or] at h1 h2
      have ih := ih h1.2 h2.2
      split
      · rename_i h
        rw [fsum_cons]
        by_cases hm : FV.ninf ∈ l
        · rw [if_pos hm] at ih
          rw [ih]
          cases a <;> first | rfl | exact absurd rfl h1.1 | exact absurd rfl h2.1
        · rcases List.mem_cons.mp h with rfl | h
          · have hall := all_fin h1.2 h2.2 hm
            obtain ⟨r, hr⟩ := hall
            rw [hr, hfin]
            rfl
          · exact absurd h hm
      · rfl
  have hboth : ∀ l : List (FV K), .nan ∉ l → .pinf ∈ l → .ninf ∈ l → fsum l = .nan := by
    intro l h1 h2 h3
    have hperm := List.filter_append_perm (fun x : FV K => decide (x = .pinf)) l
    rw [← fsum_perm hperm, fsum_append]
    have e1 : fsum (l.filter fun x => decide (x = FV.pinf)) = .pinf := by
      have hmem : FV.pinf ∈ l.filter fun x => decide (x = FV.pinf) := by simp [h2]
      rw [hp _ (by simp) (by simp), if_pos hmem]
    have e2 : fsum (l.filter fun x => !decide (x = FV.pinf)) = .ninf := by
      have hmem : FV.ninf ∈ l.filter fun x => !decide (x = FV.pinf) := by simp [h3]
      rw [hm _ (by simp [h1]) (by simp), if_pos hmem]
    rw [e1, e2]; rfl
  refine ⟨?_, ?_, ?_, ?_⟩
  · rintro (h | ⟨h1, h2⟩)
    · exact hn l h
    · by_cases h : FV.nan ∈ l
      · exact hn l h
      · exact hboth l h h1 h2
  · intro h1 h2 h3
    rw [hp l h1 h3, if_pos h2]
  · intro h1 h2 h3
    rw [hm l h1 h3, if_pos h2]
  · rintro r rfl
    exact hfin r

theorem fsum_finite {l : List (FV K)} (h : ∀ x ∈ l, x.isFinite = true) : ∃ a, fsum l = .fin a := by
  induction l with
  | nil => exact ⟨0, rfl⟩
  | cons x l ih =>
    obtain ⟨a, ha⟩ := ih (fun y hy => h y (by simp [hy]))
    have hx := h x (by simp)
    cases x with
    | fin b => exact ⟨b + a, by rw [fsum_cons, ha]; rfl⟩
    | nan => cases hx
    | pinf => cases hx
    | ninf => cases hx

theorem fsum_not_finite {l : List (FV K)} (h : ∃ x ∈ l, x.isFinite = false) : (fsum l).isFinite = false := by
  induction l with
  | nil => obtain ⟨x, hx, -⟩ := h; simp at hx
  | cons x l ih =>
    rw [fsum_cons]
    by_cases hl : ∃ x ∈ l, x.isFinite = false
    · have := ih hl
      revert this
      generalize fsum l = s
      cases x <;> cases s <;> first | (intro h; cases h; done) | (intro _; rfl)
    · obtain ⟨y, hy, hf⟩ := h
      rcases List.mem_cons.mp hy with rfl | hy
      · revert hf
        generalize fsum l = s
        cases y <;> cases s <;> first | (intro h; cases h; done) | (intro _; rfl)
      · exact absurd ⟨y, hy, hf⟩ hl

/-- differences of cumulative sums -/
theorem fsum_diff (a b : FV K) : (a.isFinite = true → a + b - a = b) ∧ (a.isFinite = false → a + b - a = .nan) := by
  refine ⟨fun h => ?_, fun h => ?_⟩
  · cases a with
    | fin x => cases b <;> first | rfl | (simp only [FV.fin_add_fin, FV.fin_sub_fin, add_sub_cancel_left])
    | nan => cases h
    | pinf => cases h
    | ninf => cases h
  · cases a <;> cases b <;> first | (cases h; done) | rfl

theorem length_histCumF (es : List (FV K)) (xs : List (FV K × FV K)) : (histCumF es xs).length = es.length := by
  unfold histCumF
  rcases List.eq_nil_or_concat es with rfl | ⟨l, a, rfl⟩
  · simp
  · simp

theorem getElem_histCumF {es : List (FV K)} (h : Increasing es) (xs : List (FV K × FV K)) (i : ℕ) (hi : i < es.length) :
    (histCumF es xs)[i]'(by rw [length_histCumF]; exact hi)
      = if i + 1 = es.length then wsumF (fun x => FV.le x es[i]) xs else wsumF (fun x => FV.lt x es[i]) xs := by
  have hn := h.getElem_ne_nan hi
  have e1 : (fun x => FV.le x es[i]) = fun x => !FV.sortLt es[i] x := funext fun x => (sortLt_not hn).symm
  have e2 : (fun x => FV.lt x es[i]) = fun x => FV.sortLt x es[i] := funext fun x => (sortLt_of_ne_nan hn).symm
  rw [e1, e2]
  clear e1 e2 hn h
  rcases List.eq_nil_or_concat es with rfl | ⟨l, a, rfl⟩
  · simp at hi
  · simp only [List.concat_eq_append, List.length_append, List.length_singleton] at hi
    unfold histCumF
    rcases Nat.lt_or_ge i l.length with hlt | hge
    · have : ¬ (i + 1 = (l.concat a).length) := by simp; omega
      rw [if_neg this]
      simp [List.getElem_append, hlt]
    · have hi : i = l.length := by omega
      subst hi
      simp

/-- splitting a cumulative sum -/
theorem wsumF_split {p q : FV K → Bool} (h : ∀ x, p x = true → q x = true) (xs : List (FV K × FV K)) :
    wsumF q xs = wsumF p xs + wsumF (fun x => q x && !p x) xs := by
  unfold wsumF
  rw [← fsum_append, ← List.map_append]
  apply fsum_perm
  apply List.Perm.map
  have := List.filter_append_perm (fun v : FV K × FV K => p v.1) (xs.filter fun v => q v.1)
  refine this.symm.trans ?_
  rw [List.filter_filter, List.filter_filter]
  have e1 : (xs.filter fun v => p v.1 && q v.1) = xs.filter fun v => p v.1 := by
    apply List.filter_congr
    intro v _
    cases hp : p v.1 with
    | true => rw [h _ hp]; rfl
    | false => rfl
  have e2 : (xs.filter fun v => !p v.1 && q v.1) = xs.filter fun v => q v.1 && !p v.1 := by
    apply List.filter_congr
    intro v _
    rw [Bool.and_comm]
  rw [e1, e2]

/-- the difference of the cumulative sums at the edges of a bin -/
theorem bin_diff {es : List (FV K)} (h : Increasing es) (xs : List (FV K × FV K)) (i : ℕ) (hi : i + 1 < es.length) :
    (histCumF es xs)[i + 1]'(by rw [length_histCumF]; exact hi) - (histCumF es xs)[i]'(by rw [length_histCumF]; omega)
      = wsumF (fun x => FV.lt x (es[i])) xs + wsumF (fun x => decide (InHistBin es i x)) xs - wsumF (fun x => FV.lt x (es[i])) xs := by
  rw [getElem_histCumF h xs (i+1) hi, getElem_histCumF h xs i (by omega)]
  rw [if_neg (show ¬ i + 1 = es.length by omega)]
  have hle : FV.le es[i] es[i+1] = true := h.getElem_le (by omega) hi
  have hni := h.getElem_ne_nan (show i < es.length by omega)
  congr 1
  split
  · rename_i hlast
    rw [wsumF_split (fun x hx => FV.le_of_lt' (FV.lt_of_lt_of_le' hx hle))]
    congr 2
    funext x
    rw [Bool.eq_iff_iff]
    simp only [Bool.and_eq_true, Bool.not_eq_true', decide_eq_true_eq]
    unfold InHistBin
    constructor
    · rintro ⟨ha, hb⟩
      refine ⟨hi, ?_, Or.inr ⟨by omega, ha⟩⟩
      rcases FV.le_or_lt' hni (FV.ne_nan_of_le ha).1 with hc | hc
      · exact hc
      · rw [hb] at hc; exact absurd hc (by simp)
    · rintro ⟨_, ha, hb⟩
      refine ⟨?_, FV.not_lt_of_le ha⟩
      rcases hb with hb | ⟨-, hb⟩
      · exact FV.le_of_lt' hb
      · exact hb
  · rename_i hlast
    rw [wsumF_split (fun x hx => FV.lt_of_lt_of_le' hx hle)]
    congr 2
    funext x
    rw [Bool.eq_iff_iff]
    simp only [Bool.and_eq_true, Bool.not_eq_true', decide_eq_true_eq]
    unfold InHistBin
    constructor
    · rintro ⟨ha, hb⟩
      refine ⟨hi, ?_, Or.inl ha⟩
      rcases FV.le_or_lt' hni (FV.ne_nan_of_lt ha).1 with hc | hc
      · exact hc
      · rw [hb] at hc; exact absurd hc (by simp)
    · rintro ⟨_, ha, hb⟩
      refine ⟨?_, FV.not_lt_of_le ha⟩
      rcases hb with hb | ⟨hb, -⟩
      · exact hb
      · omega

/-- the column of the events `evs` with the weights `g` -/
theorem histogramF_spec {es : List (FV K)} (h : Increasing es) (evs : List (WEvent K)) (g : WEvent K → FV K) :
    ∃ l, histogramF es (evs.map fun e => (e.key, g e)) = .ok l ∧ l.length = es.length - 1 ∧
      ∀ i, i + 1 < es.length → ∃ s, l.getD i .nan = s ∧ BinContent es (evs.map fun e => ⟨e.key, g e, e.particle⟩) i s := by
  refine ⟨fdiff (histCumF es (evs.map fun e => (e.key, g e))), ?_, ?_, ?_⟩
  · unfold histogramF
    rw [anyDescent_eq_false h]
    rfl
  · simp [fdiff, length_histCumF]
  · intro i hi
    refine ⟨_, rfl, ?_⟩
    have hlen : i < (fdiff (histCumF es (evs.map fun e => (e.key, g e)))).length := by
      simp [fdiff, length_histCumF]; omega
    have hv : (fdiff (histCumF es (evs.map fun e => (e.key, g e)))).getD i .nan =
        wsumF (fun x => FV.lt x (es[i])) (evs.map fun e => (e.key, g e)) + wsumF (fun x => decide (InHistBin es i x)) (evs.map fun e => (e.key, g e)) - wsumF (fun x => FV.lt x (es[i])) (evs.map fun e => (e.key, g e)) := by
      rw [List.getD_eq_getElem?_getD, List.getElem?_eq_getElem hlen, Option.getD_some]
      simp only [fdiff, List.getElem_zipWith, List.getElem_tail]
      exact bin_diff h _ i hi
    rw [hv]
    have hbelow : ∀ x : FV K, BelowBin es i x ↔ FV.lt x es[i] = true := fun x => ⟨fun ⟨_, h⟩ => h, fun h => ⟨by omega, h⟩⟩
    constructor
    · rintro ⟨e, he, hb, hf⟩
      obtain ⟨e0, he0, rfl⟩ := List.mem_map.mp he
      apply (fsum_diff _ _).2
      apply fsum_not_finite
      refine ⟨g e0, ?_, hf⟩
      rw [List.mem_map]
      exact ⟨(e0.key, g e0), List.mem_filter.mpr ⟨List.mem_map.mpr ⟨e0, he0, rfl⟩, (hbelow _).mp hb⟩, rfl⟩
    · intro hall
      rw [(fsum_diff _ _).1]
      · have : weightsOf (evs.map fun e => (⟨e.key, g e, e.particle⟩ : WEvent K)) (fun e => InHistBin es i e.key)
            = ((evs.map fun e => (e.key, g e)).filter (fun v => decide (InHistBin es i v.1))).map Prod.snd := by
          unfold weightsOf
          rw [List.filter_map, List.filter_map, List.map_map, List.map_map]
          rfl
        rw [this]
        exact fsum_isSum _
      · obtain ⟨a, ha⟩ : ∃ a, wsumF (fun x => FV.lt x es[i]) (evs.map fun e => (e.key, g e)) = .fin a := by
          apply fsum_finite
          intro x hx
          obtain ⟨v, hv, rfl⟩ := List.mem_map.mp hx
          obtain ⟨hv1, hv2⟩ := List.mem_filter.mp hv
          obtain ⟨e0, he0, rfl⟩ := List.mem_map.mp hv1
          exact hall _ (List.mem_map.mpr ⟨e0, he0, rfl⟩) ((hbelow _).mpr hv2)
        rw [ha]; rfl

/-! ### Columns of a table -/

/-- the columns after the particle loop, for any two columns per type -/
def setBoth {α : Type*} (N W : String → List α) (c : Cols α) (p : String) : Cols α := (c.set ("n_" ++ p) (N p)).set ("n_" ++ p ++ "_weighted") (W p)

theorem setBoth_other {α : Type*} (N W : String → List α) (c : Cols α) (ps : List String) (s : String)
    (h : ∀ p ∈ ps, s ≠ "n_" ++ p ∧ s ≠ "n_" ++ p ++ "_weighted") : ps.foldl (setBoth N W) c s = c s := by
  induction ps generalizing c with
  | nil => rfl
  | cons p ps ih =>
    have hp := h p (by simp)
    rw [List.foldl_cons, ih _ (fun q hq => h q (by simp [hq]))]
    simp [setBoth, Cols.set, hp.1, hp.2]

theorem setBoth_mem {α : Type*} (N W : String → List α) (c : Cols α) (ps : List String)
    (hnd : ps.Nodup) (hclash : ∀ p ∈ ps, ∀ q ∈ ps, p ≠ q ++ "_weighted") (p : String) (hp : p ∈ ps) :
    ps.foldl (setBoth N W) c ("n_" ++ p) = some (N p) ∧ ps.foldl (setBoth N W) c ("n_" ++ p ++ "_weighted") = some (W p) := by
  induction ps generalizing c with
  | nil => simp at hp
  | cons q ps ih =>
    have hnd' := List.nodup_cons.mp hnd
    rw [List.foldl_cons]
    by_cases hpq : p = q
    · subst hpq
      constructor
      · rw [setBoth_other]
        · simp only [setBoth, Cols.set]
          have : ¬ ("n_" ++ p = "n_" ++ p ++ "_weighted") := by
            rw [prefix_suffix_ne]; exact ne_suffix p
          simp [this]
        · intro r hr
          rw [Ne, prefix_inj, Ne, prefix_suffix_ne]
          exact ⟨fun h => hnd'.1 (h ▸ hr), hclash p (by simp) r (by simp [hr])⟩
      · rw [setBoth_other]
        · simp [setBoth, Cols.set]
        · intro r hr
          constructor
          · intro h
            exact hclash r (by simp [hr]) p (by simp) (prefix_suffix_ne.mp h.symm)
          · rw [Ne, suffix_inj]
            exact fun h => hnd'.1 (h ▸ hr)
    · have hp' : p ∈ ps := by simpa [hpq] using hp
      exact ih _ hnd'.2 (fun a ha b hb => hclash a (by simp [ha]) b (by simp [hb])) hp'

theorem mem_groupKeysF (evs : List (WEvent K)) (p : String) : p ∈ groupKeysF evs ↔ ∃ e ∈ evs, e.particle = p := by
  unfold groupKeysF
  rw [List.mem_insertionSort, List.mem_dedup, List.mem_map]

theorem nodup_groupKeysF (evs : List (WEvent K)) : (groupKeysF evs).Nodup := by
  unfold groupKeysF
  rw [(List.perm_insertionSort _ _).nodup_iff]
  exact List.nodup_dedup _

/-- the weight the histogram uses -/
def effWeightF (t : WEventTable K) (e : WEvent K) : FV K := if t.hasWeight then e.weight else .fin 1

/-- closed form of the columns -/
theorem createHistogramTableF_ok {edges : List (FV K)} (h : Increasing edges) (t : WEventTable K) :
    ∃ N W : List (WEvent K) → List (FV K),
      (∀ evs, histogramF edges (evs.map fun e => (e.key, .fin 1)) = .ok (N evs)) ∧ (∀ evs, histogramF edges (evs.map fun e => (e.key, effWeightF t e)) = .ok (W evs)) ∧
      createHistogramTableF t edges = .ok ⟨edges.dropLast, edges.tail, binCenter edges,
        (if t.hasParticle then groupKeysF t.rows else []).foldl (setBoth (fun p => N (ofType t.rows p)) (fun p => W (ofType t.rows p)))
          ((Cols.set (fun _ => none) "n" (N t.rows)).set "n_weighted" (W t.rows))⟩ := by
  have hN : ∀ evs : List (WEvent K), ∃ l, histogramF edges (evs.map fun e => (e.key, .fin 1)) = .ok l := fun evs => ⟨_, (histogramF_spec h evs (fun _ => .fin 1)).choose_spec.1⟩
  have hW : ∀ evs : List (WEvent K), ∃ l, histogramF edges (evs.map fun e => (e.key, effWeightF t e)) = .ok l := fun evs => ⟨_, (histogramF_spec h evs (effWeightF t)).choose_spec.1⟩
  choose N hN using hN
  choose W hW using hW
  refine ⟨N, W, hN, hW, ?_⟩
  have hw : ∀ evs : List (WEvent K), (if t.hasWeight = true then histogramF edges (withWeightsF evs) else pure (N evs)) = Except.ok (W evs) := by
    intro evs
    rw [← hW evs]
    unfold withWeightsF effWeightF
    cases hh : t.hasWeight with
    | true => rfl
    | false => exact (hN evs).symm
  have hp : ∀ (c : Cols (FV K)) (p : String), addParticleF edges t.hasWeight t.rows c p = .ok (setBoth (fun p => N (ofType t.rows p)) (fun p => W (ofType t.rows p)) c p) := by
    intro c p
    have e1 := hN (t.rows.filter fun e => e.particle = p)
    have e2 := hw (t.rows.filter fun e => e.particle = p)
    unfold addParticleF unitWeightsF
    simp only [e1, bind, Except.bind]
    cases hh : t.hasWeight <;> rw [hh] at e2 <;> simp only [if_true, Bool.false_eq_true, if_false] at e2 ⊢ <;> rw [e2] <;> rfl
  have hfold := foldlM_ok (addParticleF edges t.hasWeight t.rows) (setBoth (fun p => N (ofType t.rows p)) (fun p => W (ofType t.rows p))) (groupKeysF t.rows)
    ((Cols.set (fun _ => none) "n" (N t.rows)).set "n_weighted" (W t.rows)) hp
  have hw0 := hw t.rows
  have goal : createHistogramTableF t edges = (do
      let c3 ← if t.hasParticle && decide (0 < t.rows.length) then
          (groupKeysF t.rows).foldlM (addParticleF edges t.hasWeight t.rows) ((Cols.set (fun _ => none) "n" (N t.rows)).set "n_weighted" (W t.rows))
        else pure ((Cols.set (fun _ => none) "n" (N t.rows)).set "n_weighted" (W t.rows))
      pure ⟨edges.dropLast, edges.tail, binCenter edges, c3⟩) := by
    unfold createHistogramTableF unitWeightsF
    simp only [hN t.rows, bind, Except.bind]
    cases hh : t.hasWeight <;> rw [hh] at hw0 <;> simp only [if_true, Bool.false_eq_true, if_false] at hw0 ⊢ <;> rw [hw0]
  rw [goal, hfold]
  cases hpt : t.hasParticle with
  | false => rfl
  | true =>
    cases hr : t.rows with
    | nil => rfl
    | cons a l => rfl

theorem weightsOf_one (evs : List (WEvent K)) (P : FV K → Prop) [DecidablePred P] :
    weightsOf (evs.map fun e => (⟨e.key, .fin 1, e.particle⟩ : WEvent K)) (fun e => P e.key) = (List.replicate (evs.filter fun e => decide (P e.key)).length (1 : K)).map FV.fin := by
  unfold weightsOf
  rw [List.filter_map, List.map_map, List.map_replicate]
  induction evs with
  | nil => rfl
  | cons e evs ih =>
    by_cases h : P e.key <;> simp_all [List.replicate_succ]

theorem count_content {edges : List (FV K)} {evs : List (WEvent K)} {i : ℕ} {s : FV K} (hs : BinContent edges (evs.map fun e => ⟨e.key, .fin 1, e.particle⟩) i s) :
    s = .fin ((evs.filter fun e => decide (InHistBin edges i e.key)).length : K) := by
  have := hs.2 (by
    intro e he _
    obtain ⟨e0, -, rfl⟩ := List.mem_map.mp he
    rfl)
  rw [this.2.2.2 _ (weightsOf_one evs fun x => InHistBin edges i x)]
  simp

/-! ## C142 -/

/-- **C142** The histogram table of events with any weights, also NaN and infinite ones, on increasing edges: the counts are the numbers of events in the bins; the weighted content of a bin is the sum of the weights of its events
if no event below the bin has a weight that is NaN or infinite, otherwise NaN. The columns of a particle type hold the same for the events of this type, so they are not affected by weights of other types. -/
theorem C142_weights (t : WEventTable K) (edges : List (FV K)) (h : Increasing edges) (hw : t.hasWeight = true) (hc : t.hasParticle = true → NoClashF t.rows) :
    ∃ tab, createHistogramTableF t edges = .ok tab ∧ tab.low = edges.dropLast ∧ tab.high = edges.tail ∧ tab.center = binCenter edges ∧
      ∀ i, i + 1 < edges.length →
        tab.cell "n" i = .fin ((t.rows.filter fun e => decide (InHistBin edges i e.key)).length : K) ∧
        BinContent edges t.rows i (tab.cell "n_weighted" i) ∧
        (t.hasParticle = true → ∀ e ∈ t.rows,
          tab.cell ("n_" ++ e.particle) i = .fin (((ofType t.rows e.particle).filter fun e => decide (InHistBin edges i e.key)).length : K) ∧
          BinContent edges (ofType t.rows e.particle) i (tab.cell ("n_" ++ e.particle ++ "_weighted") i)) := by
  obtain ⟨N, W, hN, hW, hok⟩ := createHistogramTableF_ok h t
  refine ⟨_, hok, rfl, rfl, rfl, ?_⟩
  intro i hi
  have hps : ∀ p ∈ (if t.hasParticle then groupKeysF t.rows else []), t.hasParticle = true ∧ ∃ e ∈ t.rows, e.particle = p := by
    intro p hp
    split at hp
    · rename_i hh; exact ⟨hh, (mem_groupKeysF _ _).mp hp⟩
    · simp at hp
  have cN : ∀ evs, (N evs).getD i .nan = .fin ((evs.filter fun e => decide (InHistBin edges i e.key)).length : K) := by
    intro evs
    obtain ⟨l, h1, -, h3⟩ := histogramF_spec h evs (fun _ => .fin 1)
    obtain rfl : N evs = l := Except.ok.inj ((hN evs).symm.trans h1)
    obtain ⟨s, h4, h5⟩ := h3 i hi
    rw [h4]
    exact count_content h5
  have cW : ∀ evs, BinContent edges evs i ((W evs).getD i .nan) := by
    intro evs
    obtain ⟨l, h1, -, h3⟩ := histogramF_spec h evs (effWeightF t)
    obtain rfl : W evs = l := Except.ok.inj ((hW evs).symm.trans h1)
    obtain ⟨s, h4, h5⟩ := h3 i hi
    rw [h4]
    have : (evs.map fun e => (⟨e.key, effWeightF t e, e.particle⟩ : WEvent K)) = evs := by
      conv_rhs => rw [← List.map_id evs]
      apply List.map_congr_left
      intro e _
      simp [effWeightF, hw]
    rwa [this] at h5
  refine ⟨?_, ?_, ?_⟩
  · unfold WHistTable.cell
    simp only
    rw [setBoth_other _ _ _ _ _ (fun p _ => n_not_particle p)]
    have : (Cols.set (Cols.set (fun _ => none) "n" (N t.rows)) "n_weighted" (W t.rows)) "n" = some (N t.rows) := by
      simp only [Cols.set]; rw [if_neg (by decide)]; simp
    rw [this]
    exact cN t.rows
  · unfold WHistTable.cell
    simp only
    rw [setBoth_other]
    · have : (Cols.set (Cols.set (fun _ => none) "n" (N t.rows)) "n_weighted" (W t.rows)) "n_weighted" = some (W t.rows) := by simp [Cols.set]
      rw [this]
      exact cW t.rows
    · intro p hp
      obtain ⟨h1, e, he, rfl⟩ := hps p hp
      exact n_weighted_not_particle _ (hc h1 e he).1
  · intro hpt e he
    unfold WHistTable.cell
    simp only [hpt, if_true]
    obtain ⟨h1, h2⟩ := setBoth_mem (fun p => N (ofType t.rows p)) (fun p => W (ofType t.rows p)) ((Cols.set (fun _ => none) "n" (N t.rows)).set "n_weighted" (W t.rows)) (groupKeysF t.rows) (nodup_groupKeysF _)
      (by
        intro p hp q hq
        obtain ⟨e1, he1, rfl⟩ := (mem_groupKeysF _ _).mp hp
        obtain ⟨e2, he2, rfl⟩ := (mem_groupKeysF _ _).mp hq
        exact (hc hpt e1 he1).2 e2 he2) e.particle ((mem_groupKeysF _ _).mpr ⟨e, he, rfl⟩)
    rw [h1, h2]
    exact ⟨cN _, cW _⟩

/-- **C142** So one event with NaN weight makes the weighted content NaN in its bin and in all bins above, and in all bins if it is below the first edge; events above the last edge (or with NaN energy) do no harm. -/
theorem C142_nan_spreads (edges : List (FV K)) (evs : List (WEvent K)) (i : ℕ) (hi : i + 1 < edges.length) (s : FV K) (hs : BinContent edges evs i s) (h : Increasing edges) :
    ((∃ e ∈ evs, e.weight = .nan ∧ (FV.lt e.key edges[i + 1] = true ∨ i + 2 = edges.length ∧ FV.le e.key edges[i + 1] = true)) → s = .nan) ∧
    ((∀ e ∈ evs, e.weight.isFinite = false → FV.lt edges[i + 1] e.key = true ∨ e.key = .nan) → ∀ r : List K, weightsOf evs (fun e => InHistBin edges i e.key) = r.map FV.fin → s = .fin r.sum) := by
  constructor
  · rintro ⟨e, he, hn, hk⟩
    by_cases hb : ∃ e ∈ evs, BelowBin edges i e.key ∧ e.weight.isFinite = false
    · exact hs.1 hb
    · push Not at hb
      have hfin : ∀ e ∈ evs, BelowBin edges i e.key → e.weight.isFinite = true := fun e he hbe => by
        have := hb e he hbe
        cases hh : e.weight.isFinite with
        | true => rfl
        | false => exact absurd hh this
      refine (hs.2 hfin).1 (Or.inl ?_)
      unfold weightsOf
      rw [List.mem_map]
      refine ⟨e, List.mem_filter.mpr ⟨he, decide_eq_true ?_⟩, hn⟩
      have hnn : e.key ≠ .nan := by
        rcases hk with hk | ⟨-, hk⟩
        · exact (FV.ne_nan_of_lt hk).1
        · exact (FV.ne_nan_of_le hk).1
      have hlow : FV.le edges[i] e.key = true := by
        rcases FV.le_or_lt' (h.getElem_ne_nan (show i < edges.length by omega)) hnn with hc | hc
        · exact hc
        · have := hfin e he ⟨by omega, hc⟩
          rw [hn] at this
          cases this
      refine ⟨hi, hlow, ?_⟩
      rcases hk with hk | ⟨h1, h2⟩
      · exact Or.inl hk
      · exact Or.inr ⟨by omega, h2⟩
  · intro hall r hr
    refine (hs.2 ?_).2.2.2 r hr
    rintro e he ⟨_, hbe⟩
    cases hh : e.weight.isFinite with
    | true => rfl
    | false =>
      have hle : FV.le edges[i] edges[i+1] = true := h.getElem_le (by omega) hi
      rcases hall e he hh with hk | hk
      · have h1 := FV.lt_of_lt_of_le' hbe hle
        have h2 := FV.lt_of_lt_of_le' h1 (FV.le_of_lt' hk)
        rw [FV.lt_irrefl'] at h2
        cases h2
      · rw [hk, FV.nan_lt] at hbe
        cases hbe

/-- **C142** With finite weights the table is that of C05. -/
theorem C142_finite (t : EventTable K) (edges : List (FV K)) (h : Increasing edges) :
    ∃ tab tab', createHistogramTable t edges = .ok tab ∧ createHistogramTableF ⟨t.hasWeight, t.hasParticle, t.rows.map fun e => ⟨e.key, .fin e.weight, e.particle⟩⟩ edges = .ok tab' ∧
      tab'.low = tab.low ∧ tab'.high = tab.high ∧ tab'.center = tab.center ∧ ∀ name, tab'.cols name = (tab.cols name).map (List.map FV.fin) := by
  have hcol : ∀ (evs : List (Event K)) (g : Event K → K) (l : List (FV K)), histogramF edges (evs.map fun e => (e.key, .fin (g e))) = .ok l → l = (column edges evs g).map FV.fin := by
    intro evs g l hl
    have key : ∀ (p : FV K → Bool), wsumF p (evs.map fun e => (e.key, FV.fin (g e))) = .fin (Np.wsum p (evs.map fun e => (e.key, g e))) := by
      intro p
      unfold wsumF Np.wsum
      rw [List.filter_map, List.filter_map, List.map_map, List.map_map]
      have hh : ∀ r : List (Event K), fsum (r.map (Prod.snd ∘ fun e : Event K => (e.key, FV.fin (g e)))) = .fin (r.map (Prod.snd ∘ fun e : Event K => (e.key, g e))).sum := by
        intro r
        induction r with
        | nil => rfl
        | cons a r ih => rw [List.map_cons, fsum_cons, ih, List.map_cons, List.sum_cons]; rfl
      exact hh _
    have hcum : histCumF edges (evs.map fun e => (e.key, FV.fin (g e))) = (Np.histCum edges (evs.map fun e => (e.key, g e))).map FV.fin := by
      unfold histCumF Np.histCum
      rw [List.map_append, List.map_map, List.map_map]
      congr 1
      · exact List.map_congr_left fun e _ => key _
      · exact List.map_congr_left fun e _ => key _
    have hd : ∀ r : List K, fdiff (r.map FV.fin) = (Np.diff r).map FV.fin := by
      intro r
      unfold fdiff Np.diff
      rw [← List.map_tail, List.zipWith_map, List.map_zipWith]
      simp only [FV.fin_sub_fin]
    have h1 := histogram_events h evs g
    unfold Np.histogram at h1
    unfold histogramF at hl
    rw [anyDescent_eq_false h] at h1 hl
    simp only [Bool.false_eq_true, if_false, Except.ok.injEq] at h1 hl
    rw [← hl, hcum, hd, h1]
  obtain ⟨N, W, hN, hW, hok⟩ := createHistogramTableF_ok h (⟨t.hasWeight, t.hasParticle, t.rows.map fun e => ⟨e.key, .fin e.weight, e.particle⟩⟩ : WEventTable K)
  refine ⟨_, _, createHistogramTable_ok h t, hok, rfl, rfl, rfl, ?_⟩
  have eN : ∀ evs : List (Event K), N (evs.map fun e => ⟨e.key, .fin e.weight, e.particle⟩) = (column edges evs (fun _ => 1)).map FV.fin := by
    intro evs
    apply hcol
    rw [← hN, List.map_map]
    rfl
  have eW : ∀ evs : List (Event K), W (evs.map fun e => ⟨e.key, .fin e.weight, e.particle⟩) = (column edges evs (effWeight t)).map FV.fin := by
    intro evs
    apply hcol
    rw [← hW, List.map_map]
    congr 1
    apply List.map_congr_left
    intro e _
    simp only [Function.comp, effWeightF, effWeight]
    cases t.hasWeight <;> rfl
  have eT : ∀ p, ofType (t.rows.map fun e => (⟨e.key, .fin e.weight, e.particle⟩ : WEvent K)) p = (t.rows.filter fun e => e.particle = p).map fun e => ⟨e.key, .fin e.weight, e.particle⟩ := by
    intro p
    unfold ofType
    rw [List.filter_map]
    rfl
  have eG : groupKeysF (t.rows.map fun e => (⟨e.key, .fin e.weight, e.particle⟩ : WEvent K)) = groupKeys t.rows := by
    unfold groupKeysF groupKeys
    rw [List.map_map]
    rfl
  intro name
  simp only [eG, eT, eN, eW]
  generalize (if t.hasParticle = true then groupKeys t.rows else []) = ps
  unfold particleCols
  have key : ∀ (c : Cols K) (c' : Cols (FV K)), (∀ s, c' s = (c s).map (List.map FV.fin)) →
      ps.foldl (setBoth (fun p => (column edges (t.rows.filter fun e => e.particle = p) (fun _ => 1)).map FV.fin) (fun p => (column edges (t.rows.filter fun e => e.particle = p) (effWeight t)).map FV.fin)) c' name
        = (ps.foldl (fun c p => (c.set ("n_" ++ p) (column edges (t.rows.filter (fun e => e.particle = p)) (fun _ => 1))).set
      ("n_" ++ p ++ "_weighted") (column edges (t.rows.filter (fun e => e.particle = p)) (effWeight t))) c name).map (List.map FV.fin) := by
    induction ps with
    | nil => exact fun c c' hcc => hcc name
    | cons p ps ih =>
      intro c c' hcc
      rw [List.foldl_cons, List.foldl_cons]
      apply ih
      intro s
      simp only [setBoth, Cols.set]
      split
      · rfl
      · split
        · rfl
        · exact hcc s
  apply key
  intro s
  simp only [Cols.set]
  split
  · rfl
  · split <;> rfl

/-! ## The hypotheses can be met -/

/-- One event below the first edge with NaN weight: both bins are NaN, whatever the other weights. -/
example : ∃ tab, createHistogramTableF (⟨true, false, [⟨.fin 0, .nan, "proton"⟩, ⟨.fin (3/2), .fin 5, "proton"⟩, ⟨.fin (5/2), .fin 7, "proton"⟩]⟩ : WEventTable ℚ) [.fin 1, .fin 2, .fin 3] = .ok tab ∧
    tab.cols "n" = some [.fin 1, .fin 1] ∧ tab.cols "n_weighted" = some [.nan, .nan] := ⟨_, rfl, by decide +kernel, by decide +kernel⟩

/-- An infinite weight in the first of three bins. -/
example : ∃ tab, createHistogramTableF (⟨true, false, [⟨.fin (1/2), .fin 1, "proton"⟩, ⟨.fin (1/2), .pinf, "proton"⟩, ⟨.fin (3/2), .fin 5, "proton"⟩, ⟨.fin 7, .nan, "proton"⟩]⟩ : WEventTable ℚ) [.fin 0, .fin 1, .fin 2, .fin 3] = .ok tab ∧
    tab.cols "n_weighted" = some [.pinf, .nan, .nan] := ⟨_, rfl, by decide +kernel⟩

end Pyirf.Binning
