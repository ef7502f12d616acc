import Verif.Cuts.Model
import Verif.Binning.Lemmas

/-! # Helper lemmas about the cuts model -/
set_option linter.unusedSectionVars false
set_option linter.unusedSimpArgs false

namespace Pyirf.Cuts
open Pyirf Pyirf.Binning
variable {K : Type*} [Field K] [LinearOrder K]

theorem foldlM_ok' {α β : Type*} (f : β → α → Except Err β) (g : β → α → β) (l : List α) (b : β)
    (h : ∀ b, ∀ a ∈ l, f b a = .ok (g b a)) : l.foldlM f b = .ok (l.foldl g b) := by
  induction l generalizing b with
  | nil => rfl
  | cons a l ih =>
    rw [List.foldlM_cons, h b a (by simp)]
    exact ih (g b a) (fun b a' ha' => h b a' (by simp [ha']))

theorem set_map_range {C : Type*} (n : ℕ) (f : ℕ → C) (k : ℕ) (v : C) :
    ((List.range n).map f).set k v = (List.range n).map (Function.update f k v) := by
  apply List.ext_getElem
  · simp
  · intro i h1 h2
    simp only [List.getElem_set, List.getElem_map, List.getElem_range, Function.update_apply]
    by_cases h : k = i
    · subst h; simp
    · simp [h, Ne.symm h]

/-- The values of the events whose bin value lies in bin `k` (specification of a group). -/
def group (bins : List (FV K)) (evs : List (FV K × FV K)) (k : ℕ) : List (FV K) :=
  (evs.filter (fun e => decide (InBin bins k e.2))).map Prod.fst

/-- The list of (bin number, value) of the valid events the code groups. -/
def byBinList (bins : List (FV K)) (evs : List (FV K × FV K)) : List (ℕ × FV K) :=
  ((((evs.map Prod.snd).map (binIdx bins)).zip (evs.map Prod.fst)).filter (fun e => e.1.2)).map
    (fun e => (e.1.1.toNat, e.2))

theorem mem_byBinList {bins : List (FV K)} (h : Increasing bins) (hl : 0 < bins.length)
    (evs : List (FV K × FV K)) (k : ℕ) :
    k ∈ (byBinList bins evs).map Prod.fst ↔ ∃ e ∈ evs, InBin bins k e.2 := by
  induction evs with
  | nil => simp [byBinList]
  | cons e evs ih =>
    unfold byBinList at ih ⊢
    simp only [List.map_cons, List.zip_cons_cons, List.filter_cons, List.mem_cons, exists_eq_or_imp]
    rcases bin_cases h hl e.2 with hc | ⟨i, hc⟩ | hc
    · rw [binIdx_underflow h hl _ hc]
      simp only [Bool.false_eq_true, if_false]
      rw [ih]
      constructor
      · exact Or.inr
      · rintro (hh | hh)
        · have := (binIdx_inBin h e.2 k).mpr hh
          rw [binIdx_underflow h hl _ hc] at this; simp at this
        · exact hh
    · rw [(binIdx_inBin h e.2 i).mpr hc]
      simp only [if_true, List.map_cons, List.mem_cons, Int.toNat_natCast]
      rw [ih]
      constructor
      · rintro (rfl | hh)
        · exact Or.inl hc
        · exact Or.inr hh
      · rintro (hh | hh)
        · exact Or.inl (inBin_unique h hh hc)
        · exact Or.inr hh
    · rw [binIdx_overflow h hl _ hc]
      simp only [Bool.false_eq_true, if_false]
      rw [ih]
      constructor
      · exact Or.inr
      · rintro (hh | hh)
        · have := (binIdx_inBin h e.2 k).mpr hh
          rw [binIdx_overflow h hl _ hc] at this; simp at this
        · exact hh

theorem group_eq {bins : List (FV K)} (h : Increasing bins) (hl : 0 < bins.length)
    (evs : List (FV K × FV K)) (k : ℕ) :
    ((byBinList bins evs).filter (fun e => e.1 = k)).map Prod.snd = group bins evs k := by
  induction evs with
  | nil => simp [byBinList, group]
  | cons e evs ih =>
    unfold byBinList group at ih ⊢
    simp only [List.map_cons, List.zip_cons_cons, List.filter_cons]
    rcases bin_cases h hl e.2 with hc | ⟨i, hc⟩ | hc
    · have hnot : ¬ InBin bins k e.2 := fun hh => by
        have := (binIdx_inBin h e.2 k).mpr hh
        rw [binIdx_underflow h hl _ hc] at this; simp at this
      rw [binIdx_underflow h hl _ hc]
      simp only [Bool.false_eq_true, if_false, hnot, decide_false]
      exact ih
    · rw [(binIdx_inBin h e.2 i).mpr hc]
      simp only [if_true, List.map_cons, List.filter_cons, Int.toNat_natCast]
      by_cases hik : i = k
      · subst hik
        simp only [decide_true, if_true, List.map_cons, hc]
        rw [ih]
      · have hnot : ¬ InBin bins k e.2 := fun hh => hik (inBin_unique h hc hh)
        simp only [hik, decide_false, Bool.false_eq_true, if_false, hnot]
        exact ih
    · have hnot : ¬ InBin bins k e.2 := fun hh => by
        have := (binIdx_inBin h e.2 k).mpr hh
        rw [binIdx_overflow h hl _ hc] at this; simp at this
      rw [binIdx_overflow h hl _ hc]
      simp only [Bool.false_eq_true, if_false, hnot, decide_false]
      exact ih

theorem group_ne_nil_iff (bins : List (FV K)) (evs : List (FV K × FV K)) (k : ℕ) :
    group bins evs k ≠ [] ↔ ∃ e ∈ evs, InBin bins k e.2 := by
  unfold group
  rw [Ne, List.map_eq_nil_iff, List.filter_eq_nil_iff]
  push Not
  simp

/-- Some event lies in one of the bins. -/
def SomeInside (bins : List (FV K)) (evs : List (FV K × FV K)) : Prop := ∃ e ∈ evs, ∃ i, InBin bins i e.2

theorem byBinList_nil_iff {bins : List (FV K)} (h : Increasing bins) (hl : 0 < bins.length) (evs : List (FV K × FV K)) :
    (byBinList bins evs).map Prod.fst = [] ↔ ¬ SomeInside bins evs := by
  rw [List.eq_nil_iff_forall_not_mem]
  unfold SomeInside
  push Not
  constructor
  · intro H e he i hc
    exact H i ((mem_byBinList h hl evs i).mpr ⟨e, he, hc⟩)
  · intro H k hk
    obtain ⟨e, he, hc⟩ := (mem_byBinList h hl evs k).mp hk
    exact H e he k hc

/-- With no event in the bins, grouping fails. -/
theorem cutTable_none {C : Type*} (pct : List (FV K) → Except Err C) (clip : C → C) (fill : C)
    (minEvents : ℤ) (evs : List (FV K × FV K)) {bins : List (FV K)} (h : Increasing bins) (hl : 0 < bins.length)
    (hin : ¬ SomeInside bins evs) : cutTable pct clip fill minEvents evs bins = .error .indexError := by
  unfold cutTable
  rw [calculateBinIndices_increasing h _ (by simp)]
  simp only []
  have h1 := (byBinList_nil_iff h hl evs).mpr hin
  unfold byBinList at h1
  rw [h1]
  rfl

/-- Closed form of the cut table: each row depends only on the events of its bin. -/
theorem cutTable_eq {C : Type*} (pct : List (FV K) → Except Err C) (val : List (FV K) → C) (clip : C → C) (fill : C)
    (minEvents : ℤ) (evs : List (FV K × FV K)) {bins : List (FV K)} (h : Increasing bins) (hl : 0 < bins.length)
    (hpct : ∀ g, pct g = .ok (val g)) (hin : SomeInside bins evs) :
    cutTable pct clip fill minEvents evs bins = .ok
      ⟨bins.dropLast, bins.tail, binCenter bins,
        (List.range (bins.length - 1)).map (fun i => (group bins evs i).length),
        (List.range (bins.length - 1)).map (fun i =>
          if group bins evs i = [] ∨ ((group bins evs i).length : ℤ) < minEvents then fill
          else clip (val (group bins evs i)))⟩ := by
  unfold cutTable
  rw [calculateBinIndices_increasing h _ (by simp)]
  simp only []
  have hne : (byBinList bins evs).map Prod.fst ≠ [] := fun e => (byBinList_nil_iff h hl evs).mp e hin
  have hgk : groupedBy ((byBinList bins evs).map Prod.fst)
      = .ok ((((byBinList bins evs).map Prod.fst).dedup).insertionSort (· ≤ ·)) := if_neg hne
  unfold byBinList at hgk
  rw [hgk]
  change List.foldlM (cutStep pct clip fill minEvents (byBinList bins evs)) _
    ((((byBinList bins evs).map Prod.fst).dedup).insertionSort (· ≤ ·)) = _
  set keys := (((byBinList bins evs).map Prod.fst).dedup).insertionSort (· ≤ ·) with hkeys
  have hmem : ∀ k, k ∈ keys ↔ group bins evs k ≠ [] := by
    intro k
    rw [hkeys, List.mem_insertionSort, List.mem_dedup, mem_byBinList h hl, group_ne_nil_iff]
  set cell : ℕ → C := fun i => if ((group bins evs i).length : ℤ) < minEvents then fill
          else clip (val (group bins evs i)) with hcell
  let step : CutTable K C → ℕ → CutTable K C := fun tab k =>
    { tab with nEvents := tab.nEvents.set k (group bins evs k).length, cut := tab.cut.set k (cell k) }
  have hstep : ∀ tab k, cutStep pct clip fill minEvents (byBinList bins evs) tab k = .ok (step tab k) := by
    intro tab k
    unfold cutStep
    simp only [group_eq h hl, hpct, step, hcell]
    split <;> simp
  rw [foldlM_ok' _ step _ _ (fun b a _ => hstep b a)]
  congr 1
  have key : ∀ (ks : List ℕ) (f : ℕ → ℕ) (g : ℕ → C) (lo hi ce : List (FV K)),
      ks.foldl step ⟨lo, hi, ce, (List.range (bins.length - 1)).map f, (List.range (bins.length - 1)).map g⟩
        = ⟨lo, hi, ce,
            (List.range (bins.length - 1)).map (fun i => if i ∈ ks then (group bins evs i).length else f i),
            (List.range (bins.length - 1)).map (fun i => if i ∈ ks then cell i else g i)⟩ := by
    intro ks
    induction ks with
    | nil => intro f g lo hi ce; simp
    | cons k ks ih =>
      intro f g lo hi ce
      rw [List.foldl_cons]
      simp only [step]
      rw [set_map_range, set_map_range, ih]
      congr 1
      · apply List.map_congr_left
        intro i _
        by_cases hi1 : i ∈ ks
        · simp [hi1]
        · by_cases hi2 : i = k
          · subst hi2; simp
          · simp [hi1, hi2]
      · apply List.map_congr_left
        intro i _
        by_cases hi1 : i ∈ ks
        · simp [hi1]
        · by_cases hi2 : i = k
          · subst hi2; simp
          · simp [hi1, hi2]
  have e1 : List.replicate (bins.length - 1) 0 = (List.range (bins.length - 1)).map (fun _ => 0) := by simp
  have e2 : List.replicate (bins.length - 1) fill = (List.range (bins.length - 1)).map (fun _ => fill) := by simp
  rw [e1, e2, key]
  congr 1
  · apply List.map_congr_left
    intro i _
    simp only [hmem]
    by_cases hg : group bins evs i = [] <;> simp [hg]
  · apply List.map_congr_left
    intro i _
    simp only [hmem, hcell]
    by_cases hg : group bins evs i = [] <;> simp [hg]

end Pyirf.Cuts
