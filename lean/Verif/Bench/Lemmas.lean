import Verif.Bench.Model
import Verif.Cuts.PercentileProps

/-! # Closed forms of the benchmark tables -/
set_option linter.unusedSectionVars false
set_option linter.unusedSimpArgs false

namespace Pyirf.Bench
open Pyirf Pyirf.Np Pyirf.Binning Pyirf.Cuts

/-- mapping over a successful result -/
def mapOk {α β : Type*} (f : α → β) : Except Err α → Except Err β
  | .ok a => .ok (f a)
  | .error e => .error e

theorem foldlM_commute {α β γ : Type*} (conv : α → β) (P : α → Prop) (f : α → γ → Except Err α) (g : β → γ → Except Err β)
    (h : ∀ a c, P a → g (conv a) c = mapOk conv (f a c)) (hP : ∀ a c a', P a → f a c = .ok a' → P a') (l : List γ) (a : α) (ha : P a) :
    l.foldlM g (conv a) = mapOk conv (l.foldlM f a) := by
  induction l generalizing a with
  | nil => rfl
  | cons c l ih =>
    rw [List.foldlM_cons, List.foldlM_cons, h a c ha]
    rcases hf : f a c with e | a'
    · rfl
    · exact ih a' (hP a c a' ha hf)

/-- the pair of bias and resolution of a group -/
def pairFn (bf rf : List (FV ℝ) → Except Err (FV ℝ)) (g : List (FV ℝ)) : Except Err (FV ℝ × FV ℝ) :=
  match bf g with
  | .error e => .error e
  | .ok b => match rf g with
    | .error e => .error e
    | .ok r => .ok (b, r)

/-- a cut table with pairs as cells, read as bias table -/
def toBias (t : CutTable ℝ (FV ℝ × FV ℝ)) : BiasTable := ⟨t.low, t.high, t.center, t.nEvents, t.cut.map Prod.fst, t.cut.map Prod.snd⟩

theorem biasStep_eq (bf rf : List (FV ℝ) → Except Err (FV ℝ)) (byBin : List (ℕ × FV ℝ)) (t : CutTable ℝ (FV ℝ × FV ℝ)) (k : ℕ) :
    biasStep bf rf byBin (toBias t) k = mapOk toBias (cutStep (pairFn bf rf) id (.nan, .nan) 0 byBin t k) := by
  unfold biasStep cutStep pairFn
  simp only []
  rw [if_neg (by push_cast; omega)]
  generalize List.map Prod.snd (List.filter (fun e => decide (e.1 = k)) byBin) = g
  rcases bf g with e | b
  · rfl
  · rcases rf g with e | r
    · rfl
    · simp [mapOk, toBias, List.map_set]

/-- the pairs (relative error, energy used for the binning) -/
noncomputable def errPairs (t : EnergyType) (events : List Event) : List (FV ℝ × FV ℝ) := events.map fun e => (e.relError, e.energy t)
/-- the pairs (theta, energy used for the binning) -/
def thetaPairs (t : EnergyType) (events : List Event) : List (FV ℝ × FV ℝ) := events.map fun e => (e.theta, e.energy t)

/-- There are no events at all, or some event lies in one of the bins. -/
def EmptyOrInside (t : EnergyType) (bins : List (FV ℝ)) (events : List Event) : Prop :=
  events = [] ∨ ∃ e ∈ events, ∃ i, InBin bins i (e.energy t)

theorem inside_errPairs {t : EnergyType} {events : List Event} {bins : List (FV ℝ)} :
    SomeInside bins (errPairs t events) ↔ ∃ e ∈ events, ∃ i, InBin bins i (e.energy t) := by
  constructor
  · rintro ⟨e, he, i, hi⟩
    obtain ⟨e0, h0, rfl⟩ := List.mem_map.mp he
    exact ⟨e0, h0, i, hi⟩
  · rintro ⟨e, he, i, hi⟩
    exact ⟨_, List.mem_map_of_mem he, i, hi⟩

theorem inside_thetaPairs {t : EnergyType} {events : List Event} {bins : List (FV ℝ)} :
    SomeInside bins (thetaPairs t events) ↔ ∃ e ∈ events, ∃ i, InBin bins i (e.energy t) := by
  constructor
  · rintro ⟨e, he, i, hi⟩
    obtain ⟨e0, h0, rfl⟩ := List.mem_map.mp he
    exact ⟨e0, h0, i, hi⟩
  · rintro ⟨e, he, i, hi⟩
    exact ⟨_, List.mem_map_of_mem he, i, hi⟩

/-- events, but none in the bins: grouping fails -/
theorem energyBiasResolution_none (bf rf : List (FV ℝ) → Except Err (FV ℝ)) (t : EnergyType) (events : List Event) {bins : List (FV ℝ)}
    (h : Increasing bins) (hl : 0 < bins.length) (hne : events ≠ []) (hin : ¬ ∃ e ∈ events, ∃ i, InBin bins i (e.energy t)) :
    energyBiasResolution bf rf t events bins = .error .indexError := by
  have hsnd : (errPairs t events).map Prod.snd = events.map (Event.energy t) := by simp [errPairs]
  have hfst : (errPairs t events).map Prod.fst = events.map Event.relError := by simp [errPairs]
  have h1 := (byBinList_nil_iff h hl (errPairs t events)).mpr (fun hh => hin (inside_errPairs.mp hh))
  unfold byBinList at h1
  rw [hsnd, hfst] at h1
  unfold energyBiasResolution
  simp only []
  rw [if_neg hne, calculateBinIndices_increasing h _ (by simp)]
  simp only [h1]
  rfl

/-- events, but none in the bins: grouping fails -/
theorem angularResolution_none (t : EnergyType) (qs : List ℝ) (events : List Event) {bins : List (FV ℝ)}
    (h : Increasing bins) (hl : 0 < bins.length) (hne : events ≠ []) (hin : ¬ ∃ e ∈ events, ∃ i, InBin bins i (e.energy t)) :
    angularResolution t qs events bins = .error .indexError := by
  have hsnd : (thetaPairs t events).map Prod.snd = events.map (Event.energy t) := by simp [thetaPairs]
  have hfst : (thetaPairs t events).map Prod.fst = events.map Event.theta := by simp [thetaPairs]
  have h1 := (byBinList_nil_iff h hl (thetaPairs t events)).mpr (fun hh => hin (inside_thetaPairs.mp hh))
  unfold byBinList at h1
  rw [hsnd, hfst] at h1
  unfold angularResolution
  rw [calculateBinIndices_increasing h _ (by simp)]
  simp only []
  rw [if_neg hne]
  simp only [h1]
  rfl

theorem energyBiasResolution_eq (bf rf : List (FV ℝ) → Except Err (FV ℝ)) (bv rv : List (FV ℝ) → FV ℝ) (hb : ∀ g, bf g = .ok (bv g))
    (hr : ∀ g, rf g = .ok (rv g)) (t : EnergyType) (events : List Event) {bins : List (FV ℝ)} (h : Increasing bins) (hl : 0 < bins.length)
    (hin : EmptyOrInside t bins events) :
    energyBiasResolution bf rf t events bins = .ok
      ⟨bins.dropLast, bins.tail, binCenter bins,
        (List.range (bins.length - 1)).map (fun i => (group bins (errPairs t events) i).length),
        (List.range (bins.length - 1)).map (fun i => if group bins (errPairs t events) i = [] then .nan else bv (group bins (errPairs t events) i)),
        (List.range (bins.length - 1)).map (fun i => if group bins (errPairs t events) i = [] then .nan else rv (group bins (errPairs t events) i))⟩ := by
  have key := cutTable_eq (pairFn bf rf) (fun g => (bv g, rv g)) id (.nan, .nan) 0 (errPairs t events) h hl
    (by intro g; unfold pairFn; simp [hb, hr])
  have hsnd : (errPairs t events).map Prod.snd = events.map (Event.energy t) := by simp [errPairs]
  have hfst : (errPairs t events).map Prod.fst = events.map Event.relError := by simp [errPairs]
  unfold energyBiasResolution
  simp only []
  split
  · next he => subst he; simp [errPairs, group]
  · next hnil =>
    have key := key (inside_errPairs.mpr (hin.resolve_left hnil))
    unfold cutTable at key
    rw [hsnd, hfst] at key
    rcases hc : calculateBinIndices false false (events.map (Event.energy t)) bins with e | idx
    · rw [hc] at key; cases key
    · rw [hc] at key
      simp only [] at key ⊢
      have hinit : (⟨bins.dropLast, bins.tail, binCenter bins, List.replicate (bins.length - 1) 0, List.replicate (bins.length - 1) .nan,
          List.replicate (bins.length - 1) .nan⟩ : BiasTable) = toBias ⟨bins.dropLast, bins.tail, binCenter bins,
            List.replicate (bins.length - 1) 0, List.replicate (bins.length - 1) (.nan, .nan)⟩ := by simp [toBias]
      rcases hgb : groupedBy ((((idx.zip (events.map Event.relError)).filter (fun e => e.1.2)).map (fun e => (e.1.1.toNat, e.2))).map Prod.fst) with e | keys
      · rw [hgb] at key; cases key
      rw [hgb] at key
      simp only [hgb] at key ⊢
      rw [hinit, foldlM_commute toBias (fun _ => True) _ _ (fun a c _ => biasStep_eq bf rf _ a c) (fun _ _ _ _ _ => trivial) _ _ trivial, key]
      have hm : ∀ n : ℕ, ¬ ((n : ℤ) < 0) := fun n => by omega
      simp only [mapOk, toBias, List.map_map, hm, or_false, id]
      congr 2 <;> apply List.map_congr_left <;> intro i _ <;> simp only [Function.comp] <;> split <;> rfl

/-! ## Angular resolution -/

theorem setCell_fold_other (k : ℕ) (κ : ℤ) (kvs : List (ℤ × FV ℝ)) (cols : ℤ → Option (List (FV ℝ))) (h : κ ∉ kvs.map Prod.fst) :
    kvs.foldl (setCell k) cols κ = cols κ := by
  induction kvs generalizing cols with
  | nil => rfl
  | cons a l ih =>
    simp only [List.map_cons, List.mem_cons, not_or] at h
    rw [List.foldl_cons, ih _ h.2]
    unfold setCell
    rw [Function.update_of_ne h.1]

theorem setCell_fold_isSome (k : ℕ) (κ : ℤ) (kvs : List (ℤ × FV ℝ)) (cols : ℤ → Option (List (FV ℝ))) (c : List (FV ℝ)) (h : cols κ = some c) (j : ℕ)
    (hj : j < kvs.length) (hk : kvs[j].1 = κ) (hlast : ∀ j' (h' : j' < kvs.length), j < j' → kvs[j'].1 ≠ κ) :
    kvs.foldl (setCell k) cols κ = some (c.set k kvs[j].2) := by
  induction kvs generalizing cols c j with
  | nil => simp at hj
  | cons a l ih =>
    rw [List.foldl_cons]
    rcases j with _ | j
    · simp only [List.getElem_cons_zero] at hk ⊢
      rw [setCell_fold_other]
      · unfold setCell
        rw [hk, Function.update_self, h]
        rfl
      · intro hm
        obtain ⟨b, hb, hb'⟩ := List.mem_map.mp hm
        obtain ⟨n, hn, rfl⟩ := List.mem_iff_getElem.mp hb
        exact hlast (n + 1) (by simpa using hn) (by omega) (by simpa using hb')
    · simp only [List.getElem_cons_succ] at hk ⊢
      have hj' : j < l.length := by simpa using hj
      have hlast' : ∀ j' (h' : j' < l.length), j < j' → l[j'].1 ≠ κ := fun j' h' hjj => by
        have := hlast (j' + 1) (by simpa using h') (by omega)
        simpa using this
      by_cases ha : a.1 = κ
      · have hc : setCell k cols a κ = some (c.set k a.2) := by
          unfold setCell; rw [ha, Function.update_self, h]; rfl
        rw [ih _ _ hc j hj' hk hlast']
        simp
      · have hc : setCell k cols a κ = some c := by
          unfold setCell; rw [Function.update_of_ne (Ne.symm ha), h]
        rw [ih _ _ hc j hj' hk hlast']

/-- column `κ` of an angular resolution table as a cut table -/
def toCut (κ : ℤ) (t : AngTable) : CutTable ℝ (FV ℝ) := ⟨t.low, t.high, t.center, t.nEvents, (t.cols κ).getD []⟩

theorem initCols (n : ℕ) (keys : List ℤ) (κ : ℤ) (hκ : κ ∈ keys) (c0 : ℤ → Option (List (FV ℝ))) :
    keys.foldl (fun c key => Function.update c key (some (List.replicate n FV.nan))) c0 κ = some (List.replicate n .nan) := by
  have aux : ∀ (keys : List ℤ) (c0 : ℤ → Option (List (FV ℝ))), c0 κ = some (List.replicate n .nan) →
      keys.foldl (fun c key => Function.update c key (some (List.replicate n FV.nan))) c0 κ = some (List.replicate n .nan) := by
    intro keys
    induction keys with
    | nil => intro c0 h; exact h
    | cons a l ih =>
      intro c0 h
      rw [List.foldl_cons]
      apply ih
      by_cases ha : κ = a
      · subst ha; rw [Function.update_self]
      · rw [Function.update_of_ne ha, h]
  induction keys generalizing c0 with
  | nil => simp at hκ
  | cons a l ih =>
    rw [List.foldl_cons]
    by_cases ha : κ = a
    · subst ha
      exact aux l _ (by rw [Function.update_self])
    · exact ih (by simpa [ha] using hκ) _

theorem nanquantile_ok {q : ℝ} (h0 : 0 ≤ q) (h1 : q ≤ 1) (g : List (FV ℝ)) : nanquantile g q = .ok (pctVal (q * 100) g) := by
  have := nanpercentile_eq (p := q * 100) (by positivity) (by linarith) g
  unfold nanpercentile at this
  rwa [mul_div_cancel_right₀ _ (by norm_num)] at this

theorem angularResolution_eq (t : EnergyType) (qs : List ℝ) (hq : ∀ q ∈ qs, 0 ≤ q ∧ q ≤ 1) (events : List Event) {bins : List (FV ℝ)} (h : Increasing bins)
    (hl : 0 < bins.length) (hin : EmptyOrInside t bins events) :
    ∃ tab, angularResolution t qs events bins = .ok tab ∧
      ∀ (j : ℕ) (hj : j < qs.length), (∀ j' (_ : j' < qs.length), j < j' → quantileKey qs[j'] ≠ quantileKey qs[j]) →
        tab.low = bins.dropLast ∧ tab.high = bins.tail ∧ tab.center = binCenter bins ∧
        tab.nEvents = (List.range (bins.length - 1)).map (fun i => (group bins (thetaPairs t events) i).length) ∧
        tab.cols (quantileKey qs[j]) = some ((List.range (bins.length - 1)).map (fun i =>
          if group bins (thetaPairs t events) i = [] then .nan else pctVal (qs[j] * 100) (group bins (thetaPairs t events) i))) := by
  have hsnd : (thetaPairs t events).map Prod.snd = events.map (Event.energy t) := by simp [thetaPairs]
  have hfst : (thetaPairs t events).map Prod.fst = events.map Event.theta := by simp [thetaPairs]
  have hidx : ∃ idx, calculateBinIndices false false (events.map (Event.energy t)) bins = .ok idx :=
    ⟨_, calculateBinIndices_increasing h _ (by simp)⟩
  obtain ⟨idx, hidx⟩ := hidx
  have hmapM : ∀ g, (qs.mapM fun q => nanquantile g q) = .ok (qs.map fun q => pctVal (q * 100) g) :=
    fun g => mapM_ok _ (fun q => pctVal (q * 100) g) _ (fun q hq' => nanquantile_ok (hq q hq').1 (hq q hq').2 g)
  unfold angularResolution
  rw [hidx]
  simp only []
  split
  · next he =>
    subst he
    refine ⟨_, rfl, ?_⟩
    intro j hj _
    refine ⟨rfl, rfl, rfl, by simp [thetaPairs, group], ?_⟩
    simp only []
    rw [initCols _ _ _ (List.mem_map_of_mem (List.getElem_mem hj))]
    simp [thetaPairs, group]
  · next hnil =>
    have hin := inside_thetaPairs.mpr (hin.resolve_left hnil)
    set byBin : List (ℕ × FV ℝ) := ((idx.zip (events.map Event.theta)).filter (fun e => e.1.2)).map (fun e => (e.1.1.toNat, e.2)) with hby
    obtain ⟨keys, hkeys⟩ : ∃ keys, groupedBy (byBin.map Prod.fst) = .ok keys := by
      refine ⟨_, if_neg ?_⟩
      intro hnb
      have h2 := byBinList_nil_iff h hl (thetaPairs t events)
      unfold byBinList at h2
      rw [hsnd, hfst] at h2
      rw [calculateBinIndices_increasing h _ (by simp)] at hidx
      obtain rfl := Except.ok.inj hidx
      exact h2.mp hnb hin
    simp only [hkeys]
    set cols : ℤ → Option (List (FV ℝ)) := (qs.map quantileKey).foldl
      (fun c key => Function.update c key (some (List.replicate (bins.length - 1) FV.nan))) (fun _ => none) with hcols
    let step : AngTable → ℕ → AngTable := fun tab k =>
      { tab with nEvents := tab.nEvents.set k ((byBin.filter (fun e => e.1 = k)).map Prod.snd).length
                 cols := ((qs.map quantileKey).zip (qs.map fun q => pctVal (q * 100) ((byBin.filter (fun e => e.1 = k)).map Prod.snd))).foldl
                   (setCell k) tab.cols }
    have hstep : ∀ tab k, angStep qs byBin tab k = .ok (step tab k) := by
      intro tab k
      unfold angStep
      simp only [hmapM, step]
    rw [foldlM_ok' _ step _ _ (fun b a _ => hstep b a)]
    refine ⟨_, rfl, ?_⟩
    intro j hj hlast
    have hcut := cutTable_eq (fun g => nanquantile g qs[j]) (pctVal (qs[j] * 100)) id .nan 0 (thetaPairs t events) h hl
      (fun g => nanquantile_ok (hq _ (List.getElem_mem hj)).1 (hq _ (List.getElem_mem hj)).2 g) hin
    unfold cutTable at hcut
    rw [hsnd, hfst, hidx] at hcut
    simp only [] at hcut
    rw [← hby, hkeys] at hcut
    simp only [] at hcut
    set κ := quantileKey qs[j] with hκ
    have hinit : cols κ = some (List.replicate (bins.length - 1) .nan) :=
      initCols _ _ _ (List.mem_map_of_mem (List.getElem_mem hj)) _
    set init : AngTable := ⟨bins.dropLast, bins.tail, binCenter bins, List.replicate (bins.length - 1) 0, cols⟩ with hi
    have hcomm : ∀ (ks : List ℕ) (tab : AngTable), (∃ c, tab.cols κ = some c) →
        (∃ c, (ks.foldl step tab).cols κ = some c) ∧
        ks.foldlM (cutStep (fun g => nanquantile g qs[j]) id FV.nan 0 byBin) (toCut κ tab) = .ok (toCut κ (ks.foldl step tab)) := by
      intro ks
      induction ks with
      | nil => intro tab hc; exact ⟨hc, rfl⟩
      | cons k ks ih =>
        rintro tab ⟨c, hc⟩
        have hs : (step tab k).cols κ = some (c.set k (pctVal (qs[j] * 100) ((byBin.filter (fun e => e.1 = k)).map Prod.snd))) := by
          have := setCell_fold_isSome k κ ((qs.map quantileKey).zip
            (qs.map fun q => pctVal (q * 100) ((byBin.filter (fun e => e.1 = k)).map Prod.snd))) tab.cols c hc j (by simpa using hj)
            (by simp [hκ]) (by intro j' h' hjj; simpa using hlast j' (by simpa using h') hjj)
          rw [List.getElem_zip, List.getElem_map] at this
          simpa [step] using this
        obtain ⟨h1, h2⟩ := ih (step tab k) ⟨_, hs⟩
        refine ⟨h1, ?_⟩
        rw [List.foldl_cons, List.foldlM_cons]
        have : cutStep (fun g => nanquantile g qs[j]) id FV.nan 0 byBin (toCut κ tab) k = .ok (toCut κ (step tab k)) := by
          unfold cutStep
          simp only []
          rw [if_neg (by push_cast; omega), nanquantile_ok (hq _ (List.getElem_mem hj)).1 (hq _ (List.getElem_mem hj)).2]
          simp only [toCut, hs, hc, id, Option.getD_some]
          rfl
        rw [this]
        exact h2
    obtain ⟨⟨c, hc⟩, h2⟩ := hcomm keys init ⟨_, hinit⟩
    have hini : toCut κ init = ⟨bins.dropLast, bins.tail, binCenter bins, List.replicate (bins.length - 1) 0,
        List.replicate (bins.length - 1) .nan⟩ := by simp [toCut, hi, hinit]
    rw [hini, hcut] at h2
    have h3 := Except.ok.inj h2
    simp only [toCut, hc, Option.getD_some, CutTable.mk.injEq] at h3
    have hm : ∀ n : ℕ, ¬ ((n : ℤ) < 0) := fun n => by omega
    simp only [hm, or_false, id] at h3
    obtain ⟨a1, a2, a3, a4, a5⟩ := h3
    exact ⟨a1.symm, a2.symm, a3.symm, a4.symm, by rw [hc, ← a5]⟩

end Pyirf.Bench
