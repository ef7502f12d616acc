import Verif.CutOpt.TableLemmas

/-! # Shape and relative sensitivity of the table that one scan step computes -/
set_option linter.unusedSectionVars false
set_option linter.unusedSimpArgs false

namespace Pyirf.CutOpt
open Pyirf Pyirf.Binning Pyirf.Cuts Pyirf.Sensitivity Pyirf.Utils

theorem copied_prefix {s : String} (h : copied s = true) : ∃ r, s.toList = 'n' :: '_' :: r := by
  unfold copied at h
  rw [Bool.and_eq_true, List.isPrefixOf_iff_prefix] at h
  obtain ⟨r, hr⟩ := h.1
  exact ⟨r, hr.symm⟩

theorem calc_shape {brentq : RootFn} {sig : SigFn} {signal background : Table (FV ℝ)} {alpha : FV ℝ} {th : Thresholds}
    {low center high sN sW bN bW : List (FV ℝ)} {n : ℕ}
    (hs1 : signal.get "reco_energy_low" = .ok low) (hs2 : signal.get "reco_energy_high" = .ok high)
    (hs3 : signal.get "reco_energy_center" = .ok center) (hs4 : signal.get "n" = .ok sN)
    (hs5 : signal.get "n_weighted" = .ok sW)
    (hb1 : background.get "reco_energy_low" = .ok low) (hb2 : background.get "reco_energy_high" = .ok high)
    (hb3 : background.get "reco_energy_center" = .ok center) (hb4 : background.get "n" = .ok bN)
    (hb5 : background.get "n_weighted" = .ok bW) (hsr : Rect signal n) (hbr : Rect background n)
    (hnan : ∀ x ∈ low ++ center ++ high, x ≠ .nan) :
    (∀ e, relativeSensitivity brentq sig (colAxpy sW alpha bW) bW alpha th = .error e →
      calculateSensitivity brentq sig signal background alpha th = .error e) ∧
    ∀ rel, relativeSensitivity brentq sig (colAxpy sW alpha bW) bW alpha th = .ok rel →
      ∃ T, calculateSensitivity brentq sig signal background alpha th = .ok T ∧ Rect T n ∧
        LastCol T "relative_sensitivity" ∧ T.get "relative_sensitivity" = .ok rel ∧ rel.length = n := by
  have hck : checkHistograms signal background = .ok () :=
    (C72_check_histograms signal background "reco_energy" low center high low center high hs1 hs3 hs2
      hb1 hb3 hb2 rfl rfl rfl).1 ⟨rfl, rfl, rfl, hnan⟩
  constructor
  · intro e he
    unfold calculateSensitivity
    rw [hck, hs5, hb5]
    simp only [bind, Except.bind, he]
  · intro rel hrel
    have lsW : sW.length = n := hsr _ (get_mem hs5)
    have lbW : bW.length = n := hbr _ (get_mem hb5)
    have lrel : rel.length = n := by
      rw [← lbW]
      exact (relativeSensitivity_ok (by simp [colAxpy, lsW, lbW]) hrel).2.1
    set base := baseTable background low high center sN sW bN bW rel with hbase
    have rbase : Rect base n := by
      rw [hbase]; unfold baseTable
      apply rect_fold
      · intro c hc
        simp only [List.mem_cons, List.not_mem_nil, or_false] at hc
        have l1 := hsr _ (get_mem hs1)
        have l2 := hsr _ (get_mem hs2)
        have l3 := hsr _ (get_mem hs3)
        have l4 := hsr _ (get_mem hs4)
        have l5 := hbr _ (get_mem hb4)
        simp only [] at l1 l2 l3 l4 l5
        rcases hc with rfl | rfl | rfl | rfl | rfl | rfl | rfl
        · exact l1
        · exact l2
        · exact l3
        · simp [colMul, l4, lrel]
        · simp [colMul, lsW, lrel]
        · exact l5
        · exact lbW
      · intro c hc
        exact hbr c (List.mem_filter.mp hc).1
    have nbase : ∀ s, s ∈ base.names ↔ s ∈ ["reco_energy_low", "reco_energy_high", "reco_energy_center", "n_signal",
        "n_signal_weighted", "n_background", "n_background_weighted"] ∨
        s ∈ (background.cols.filter (fun c => copied c.1)).map Prod.fst := by
      intro s
      rw [hbase]; unfold baseTable
      rw [fold_set_names]
      rfl
    have hnot : ∀ s : String, copied s = false → s ∉ ["reco_energy_low", "reco_energy_high", "reco_energy_center", "n_signal",
        "n_signal_weighted", "n_background", "n_background_weighted"] → s ∉ base.names := by
      intro s hs hs' hm
      rcases (nbase s).mp hm with h | h
      · exact hs' h
      · obtain ⟨c, hc, rfl⟩ := List.mem_map.mp h
        have := (List.mem_filter.mp hc).2
        rw [hs] at this; exact absurd this (by simp)
    have h1 : "significance" ∉ base.names := hnot _ (by decide) (by decide)
    have h2 : "relative_sensitivity" ∉ base.names := hnot _ (by decide) (by decide)
    obtain ⟨c1, g1, m1⟩ := get_of_mem (t := base) (name := "n_signal_weighted") ((nbase _).mpr (Or.inl (by decide)))
    obtain ⟨c2, g2, m2⟩ := get_of_mem (t := base) (name := "n_background_weighted") ((nbase _).mpr (Or.inl (by decide)))
    have lc1 := rbase _ m1
    have lc2 := rbase _ m2
    simp only [] at lc1 lc2
    refine ⟨(base.set "significance" (List.zipWith (fun x y => sig (x + alpha * y) y alpha) c1 c2)).set
      "relative_sensitivity" rel, ?_, ?_, ?_, ?_, lrel⟩
    · unfold calculateSensitivity
      rw [hck, hs5, hb5, hs1, hs3, hs2, hs4, hb4]
      simp only [bind, Except.bind, hrel]
      rw [hbase] at g1 g2
      unfold baseTable at g1 g2
      rw [g1, g2]
      rfl
    · apply rect_set _ _ _ lrel
      apply rect_set rbase
      simp [lc1, lc2]
    · refine ⟨base.cols ++ [("significance", List.zipWith (fun x y => sig (x + alpha * y) y alpha) c1 c2)], rel, ?_, ?_⟩
      · have e1 : base.set "significance" (List.zipWith (fun x y => sig (x + alpha * y) y alpha) c1 c2) =
            ⟨base.cols ++ [("significance", List.zipWith (fun x y => sig (x + alpha * y) y alpha) c1 c2)]⟩ := by
          unfold Table.set; rw [if_neg h1]
        rw [e1]
        unfold Table.set
        rw [if_neg]
        unfold Table.names
        simp only [List.map_append, List.map_cons, List.map_nil, List.mem_append, List.mem_singleton, not_or]
        exact ⟨h2, by decide⟩
      · simp only [List.map_append, List.map_cons, List.map_nil, List.mem_append, List.mem_singleton, not_or]
        exact ⟨h2, by decide⟩
    · exact Table.get_set_self _ _ _

theorem mem_select {α : Type} {rows : List α} {sel : List Bool} {a : α} (h : a ∈ select rows sel) : a ∈ rows := by
  unfold select at h
  obtain ⟨e, he, rfl⟩ := List.mem_map.mp h
  exact (List.of_mem_zip (List.mem_filter.mp he).1).1

/-- no particle type of the table is called `weighted` (its column would collide with `n_weighted`) -/
def NoWeighted (t : EvTable) : Prop := t.hasParticle = true → ∀ e ∈ t.rows, e.particle ≠ "weighted"

section
variable {c : Ctx} {E : List (FV ℝ)}

/-- bin centre -/
noncomputable def mid (E : List (FV ℝ)) (i : ℕ) : FV ℝ := middle (E.getD i .nan) (E.getD (i + 1) .nan)

theorem center_mid (E : List (FV ℝ)) (i : ℕ) (hi : i < E.length - 1) : (binCenter E)[i]? = some (mid E i) := by
  rw [center_getElem E i (by omega)]
  unfold mid
  rw [List.getD_eq_getElem?_getD, List.getD_eq_getElem?_getD, List.getElem?_eq_getElem (by omega),
    List.getElem?_eq_getElem (by omega)]
  rfl

theorem column_fin_get (E : List (FV ℝ)) (rows : List (Event ℝ)) (g : Event ℝ → ℝ) (i : ℕ) (hi : i < E.length - 1) :
    ((column E rows g).map FV.fin)[i]? = some (.fin (sumOver rows (fun e => InHistBin E i e.key) g)) := by
  simp [column, hi]

/-- **Scan step**: the tables of a scan step, their shape, and the relative sensitivity of each bin. -/
theorem sensitivityOf_spec (hbins : c.bins = E) (hE : Np.Increasing1 E)
    (hs : NoWeighted c.signal) (hb : NoWeighted c.background) (sel bsel : List Bool) (t : CutTable ℝ (FV ℝ)) :
    (∀ T, sensitivityOf c sel bsel t = .ok T → Rect T (E.length - 1) ∧ LastCol T "relative_sensitivity" ∧
      2 ≤ E.length ∧
      ∃ rel, T.get "relative_sensitivity" = .ok rel ∧ rel.length = E.length - 1 ∧
        ∀ (i : ℕ) (r : FV ℝ), rel[i]? = some r →
          relativeSensitivity1 c.brentq c.sig
            (.fin (sigSum c E sel i) + c.alpha * bgEst c E bsel (t.center.zip t.cut) i (mid E i))
            (bgEst c E bsel (t.center.zip t.cut) i (mid E i)) c.alpha c.th = .ok r) ∧
    (2 ≤ E.length → (∀ i < E.length - 1, ∃ r, relativeSensitivity1 c.brentq c.sig
            (.fin (sigSum c E sel i) + c.alpha * bgEst c E bsel (t.center.zip t.cut) i (mid E i))
            (bgEst c E bsel (t.center.zip t.cut) i (mid E i)) c.alpha c.th = .ok r) →
      ∃ T, sensitivityOf c sel bsel t = .ok T) := by
  have hinc : Increasing E := hE.increasing
  have hw1 : c.signal.hasParticle = true → "weighted" ∉ particles ((select c.signal.rows sel).map Ev.toEvent) := by
    intro hp hm
    unfold particles at hm
    simp only [List.map_map, List.mem_map, Function.comp] at hm
    obtain ⟨e, he, h2⟩ := hm
    exact hs hp e (mem_select he) h2
  have hw2 : c.background.hasParticle = true → "weighted" ∉ particles
      ((ring ((select c.background.rows bsel).map Ev.toBg) c.offMin c.offMax).map BgEvent.toEvent) := by
    intro hp hm
    unfold particles ring at hm
    simp only [List.map_map, List.mem_map, Function.comp, List.mem_filter] at hm
    obtain ⟨e, ⟨⟨e', he', rfl⟩, -⟩, h2⟩ := hm
    exact hb hp e' (mem_select he') h2
  obtain ⟨sT, s0, s1, s2, s3, s4, s5, -⟩ := histTable_cols hinc c.signal.hasWeight c.signal.hasParticle
    ((select c.signal.rows sel).map Ev.toEvent) hw1
  obtain ⟨bT, b0, b1, b2, b3, b4, b5, -⟩ := histTable_cols hinc c.background.hasWeight c.background.hasParticle _ hw2
  obtain ⟨out, o0, o1, o2⟩ := estimateBackground_ok (thetaCuts := t.center.zip t.cut) (alpha := c.alpha) b0
  have sr := histTable_rect hinc _ _ _ _ s0
  have br := histTable_rect hinc _ _ _ _ b0
  have lrat : (ratios E (t.center.zip t.cut) c.offMin c.offMax).length = E.length - 1 := by
    simp [ratios, length_binCenter]
  have or' : Rect out (E.length - 1) := by
    have hun : estimateBackground c.background.hasWeight c.background.hasParticle
        ((select c.background.rows bsel).map Ev.toBg) E (t.center.zip t.cut) c.alpha c.offMin c.offMax = .ok
        ⟨bT.cols.map fun d => if scaled d.1 then (d.1, List.zipWith (fun x r => x * r / c.alpha) d.2
          (ratios E (t.center.zip t.cut) c.offMin c.offMax)) else d⟩ := by
      unfold estimateBackground
      have b0' := b0
      unfold ring at b0'
      simp only [b0', bind, Except.bind, pure, Except.pure]
      congr 2
      apply List.map_congr_left
      intro d _
      unfold ratios
      simp only [List.map_map]
      split <;> rfl
    rw [o0] at hun
    cases hun
    intro d hd
    obtain ⟨d', hd', rfl⟩ := List.mem_map.mp hd
    have := br d' hd'
    split
    · simp [lrat, this]
    · exact this
  have ob1 := o2 _ _ b1
  have ob2 := o2 _ _ b2
  have ob3 := o2 _ _ b3
  have ob4 := o2 _ _ b4
  have ob5 := o2 _ _ b5
  rw [if_neg (by decide)] at ob1 ob2 ob3
  rw [if_pos scaled_n] at ob4
  rw [if_pos scaled_nw] at ob5
  have hnan : ∀ x ∈ E.dropLast ++ binCenter E ++ E.tail, x ≠ FV.nan := by
    intro x hx
    simp only [List.mem_append] at hx
    rcases hx with (hx | hx) | hx
    · exact (hE.1 x (List.mem_of_mem_dropLast hx)).1
    · obtain ⟨k, hk⟩ := List.mem_iff_getElem?.mp hx
      have hk2 : k < E.length - 1 := by
        have := (List.getElem?_eq_some_iff.mp hk).1
        rwa [length_binCenter] at this
      rw [center_getElem E k (by omega)] at hk
      cases hk; exact middle_ne_nan hE k (by omega)
    · exact (hE.1 x (List.mem_of_mem_tail hx)).1
  have hS : ∀ i < E.length - 1, ((column E ((select c.signal.rows sel).map Ev.toEvent)
      (fun e => if c.signal.hasWeight then e.weight else 1)).map FV.fin)[i]? = some (.fin (sigSum c E sel i)) := by
    intro i hi
    rw [column_fin_get E _ _ i hi, sumOver_sel]
    rfl
  have hB : ∀ i < E.length - 1, (List.zipWith (fun x r => x * r / c.alpha)
      ((column E ((ring ((select c.background.rows bsel).map Ev.toBg) c.offMin c.offMax).map BgEvent.toEvent)
      (fun e => if c.background.hasWeight then e.weight else 1)).map FV.fin)
      (ratios E (t.center.zip t.cut) c.offMin c.offMax))[i]? =
        some (bgEst c E bsel (t.center.zip t.cut) i (mid E i)) := by
    intro i hi
    rw [List.getElem?_zipWith, column_fin_get E _ _ i hi, sumOver_ring_sel]
    unfold ratios
    rw [List.getElem?_map, center_mid E i hi]
    rfl
  obtain ⟨hcerr, hcok⟩ := calc_shape (brentq := c.brentq) (sig := c.sig) (alpha := c.alpha) (th := c.th)
    s1 s2 s3 s4 s5 ob1 ob2 ob3 ob4 ob5 sr or' hnan
  have hun : sensitivityOf c sel bsel t = calculateSensitivity c.brentq c.sig sT out c.alpha c.th := by
    unfold sensitivityOf
    rw [hbins, s0, o0]
  set sW := (column E ((select c.signal.rows sel).map Ev.toEvent)
      (fun e => if c.signal.hasWeight then e.weight else 1)).map FV.fin with hsW
  set bW := List.zipWith (fun x r => x * r / c.alpha)
      ((column E ((ring ((select c.background.rows bsel).map Ev.toBg) c.offMin c.offMax).map BgEvent.toEvent)
      (fun e => if c.background.hasWeight then e.weight else 1)).map FV.fin)
      (ratios E (t.center.zip t.cut) c.offMin c.offMax) with hbW
  have lsW : sW.length = E.length - 1 := sr _ (get_mem s5)
  have lbW : bW.length = E.length - 1 := or' _ (get_mem ob5)
  have lOn : (colAxpy sW c.alpha bW).length = E.length - 1 := by simp [colAxpy, lsW, lbW]
  have hOn : ∀ i < E.length - 1, (colAxpy sW c.alpha bW)[i]? =
      some (.fin (sigSum c E sel i) + c.alpha * bgEst c E bsel (t.center.zip t.cut) i (mid E i)) := by
    intro i hi
    unfold colAxpy
    rw [List.getElem?_zipWith, hS i hi, hB i hi]
  constructor
  · intro T hT
    rw [hun] at hT
    cases hr : relativeSensitivity c.brentq c.sig (colAxpy sW c.alpha bW) bW c.alpha c.th with
    | error e => rw [hcerr e hr] at hT; exact absurd hT (by simp)
    | ok rel =>
      obtain ⟨T', h1, h2, h3, h4, h5⟩ := hcok rel hr
      rw [h1] at hT
      cases hT
      obtain ⟨r1, r2, r3⟩ := relativeSensitivity_ok (by rw [lOn, lbW]) hr
      have hpos : 2 ≤ E.length := by
        have : 0 < (colAxpy sW c.alpha bW).length := List.length_pos_iff.mpr r1
        omega
      refine ⟨h2, h3, hpos, rel, h4, h5, ?_⟩
      intro i r hir
      have hi : i < rel.length := (List.getElem?_eq_some_iff.mp hir).1
      have hi' : i < E.length - 1 := by omega
      have := r3 i (by omega) (by omega) hi
      have e1 : (colAxpy sW c.alpha bW)[i]'(by omega) = _ := (List.getElem_eq_iff (by omega)).mpr (hOn i hi')
      have e2 : bW[i]'(by omega) = _ := (List.getElem_eq_iff (by omega)).mpr (hB i hi')
      have e3 : rel[i] = r := (List.getElem_eq_iff hi).mpr hir
      rw [e1, e2, e3] at this
      exact this
  · intro hlen hall
    have : ∃ rel, relativeSensitivity c.brentq c.sig (colAxpy sW c.alpha bW) bW c.alpha c.th = .ok rel := by
      apply relativeSensitivity_of
      · intro h0
        have := congrArg List.length h0
        rw [lOn] at this
        simp at this; omega
      · intro e he
        obtain ⟨k, hk⟩ := List.mem_iff_getElem?.mp he
        rw [List.getElem?_zip_eq_some] at hk
        have hk' : k < E.length - 1 := by
          have := (List.getElem?_eq_some_iff.mp hk.1).1
          omega
        rw [hOn k hk', hB k hk'] at hk
        obtain ⟨r, hr⟩ := hall k hk'
        refine ⟨r, ?_⟩
        rw [← Option.some.inj hk.1, ← Option.some.inj hk.2]
        exact hr
    obtain ⟨rel, hrel⟩ := this
    obtain ⟨T, h1, -⟩ := hcok rel hrel
    exact ⟨T, by rw [hun, h1]⟩
end

end Pyirf.CutOpt
