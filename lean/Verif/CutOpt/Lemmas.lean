import Verif.CutOpt.Model
import Verif.Sensitivity.BgProps
import Verif.Sensitivity.TableProps

/-! # Lemmas for the cut optimisation -/
set_option linter.unusedSectionVars false
set_option linter.unusedSimpArgs false

namespace Pyirf.CutOpt
open Pyirf Pyirf.Binning Pyirf.Cuts Pyirf.Sensitivity

/-! ## argmin -/

/-- `j` is the first index of the smallest entry of `l` -/
def FirstMin (l : List (FV ℝ)) (j : ℕ) : Prop :=
  ∃ v, l[j]? = some v ∧ (∀ (k : ℕ) w, l[k]? = some w → FV.le v w = true) ∧
    ∀ (k : ℕ) w, k < j → l[k]? = some w → FV.lt v w = true

theorem le_refl' {x : FV ℝ} (h : x ≠ .nan) : FV.le x x = true := by cases x <;> simp_all [FV.le]
theorem lt_le {x y : FV ℝ} (h : FV.lt x y = true) : FV.le x y = true := by
  cases x <;> cases y <;> simp_all [FV.lt, FV.le]; exact h.le
theorem le_trans' {x y z : FV ℝ} (h : FV.le x y = true) (h' : FV.le y z = true) : FV.le x z = true := by
  cases x <;> cases y <;> cases z <;> simp_all [FV.le]; exact h.trans h'
theorem lt_of_lt_le {x y z : FV ℝ} (h : FV.lt x y = true) (h' : FV.le y z = true) : FV.lt x z = true := by
  cases x <;> cases y <;> cases z <;> simp_all [FV.le, FV.lt]; exact h.trans_le h'
theorem not_lt_le {x y : FV ℝ} (hx : x ≠ .nan) (hy : y ≠ .nan) (h : FV.lt x y = false) : FV.le y x = true := by
  cases x <;> cases y <;> simp_all [FV.lt, FV.le]

/-- the loop of `argmin` -/
theorem argmin_loop (l : List (FV ℝ)) (hn : ∀ x ∈ l, x ≠ .nan) (n : ℕ) (hl : n + 1 ≤ l.length) :
    FirstMin (l.take (n + 1)) ((List.range n).foldl (fun best k =>
      match l[k + 1]?, l[best]? with
      | some a, some b => if FV.lt a b then k + 1 else best
      | _, _ => best) 0) := by
  induction n with
  | zero =>
    simp only [List.range_zero, List.foldl_nil]
    have h0 : 0 < l.length := by omega
    refine ⟨l[0], by simp [h0], ?_, by intro k w hk; omega⟩
    intro k w hw
    rw [List.getElem?_take] at hw
    split at hw
    · have : k = 0 := by omega
      subst this
      rw [List.getElem?_eq_getElem h0] at hw
      cases hw
      exact le_refl' (hn _ (List.getElem_mem _))
    · simp at hw
  | succ n ih =>
    have ih := ih (by omega)
    rw [List.range_succ, List.foldl_append]
    simp only [List.foldl_cons, List.foldl_nil]
    obtain ⟨v, hv, hmin, hfirst⟩ := ih
    set j := (List.range n).foldl (fun best k =>
      match l[k + 1]?, l[best]? with
      | some a, some b => if FV.lt a b then k + 1 else best
      | _, _ => best) 0 with hj
    have hjn : j < n + 1 := by
      by_contra hc
      rw [List.getElem?_take, if_neg hc] at hv
      simp at hv
    have hlj : l[j]? = some v := by
      rw [List.getElem?_take, if_pos hjn] at hv; exact hv
    have hn1 : n + 1 < l.length := by omega
    rw [hlj, List.getElem?_eq_getElem hn1]
    simp only []
    have hvn : v ≠ .nan := hn _ (List.mem_of_getElem? hlj)
    have hwn : l[n+1] ≠ .nan := hn _ (List.getElem_mem _)
    split
    · rename_i hlt
      refine ⟨l[n+1], by rw [List.getElem?_take, if_pos (by omega), List.getElem?_eq_getElem hn1], ?_, ?_⟩
      · intro k w hw
        rw [List.getElem?_take] at hw
        split at hw
        · by_cases hk : k = n + 1
          · subst hk
            rw [List.getElem?_eq_getElem hn1] at hw; cases hw
            exact le_refl' hwn
          · refine le_trans' (lt_le hlt) (hmin k w ?_)
            rw [List.getElem?_take, if_pos (by omega)]; exact hw
        · simp at hw
      · intro k w hk hw
        rw [List.getElem?_take, if_pos (by omega)] at hw
        refine lt_of_lt_le hlt (hmin k w ?_)
        rw [List.getElem?_take, if_pos (by omega)]; exact hw
    · rename_i hlt
      have hge := not_lt_le hwn hvn (by simpa using hlt)
      refine ⟨v, by rw [List.getElem?_take, if_pos (by omega)]; exact hlj, ?_, ?_⟩
      · intro k w hw
        rw [List.getElem?_take] at hw
        split at hw
        · by_cases hk : k = n + 1
          · subst hk
            rw [List.getElem?_eq_getElem hn1] at hw; cases hw
            exact hge
          · apply hmin k w
            rw [List.getElem?_take, if_pos (by omega)]; exact hw
        · simp at hw
      · intro k w hk hw
        rw [List.getElem?_take, if_pos (by omega)] at hw
        apply hfirst k w hk
        rw [List.getElem?_take, if_pos (by omega)]; exact hw

theorem argmin_firstMin (l : List (FV ℝ)) (hne : l ≠ []) (hn : ∀ x ∈ l, x ≠ .nan) : FirstMin l (argmin l) := by
  cases l with
  | nil => exact absurd rfl hne
  | cons x xs =>
    have := argmin_loop (x :: xs) hn xs.length (by simp)
    rw [List.take_of_length_le (by simp)] at this
    exact this

/-! ## folds over the bins -/

theorem foldlM_range {B : Type} (step : B → ℕ → Except Err B) (Inv : B → Prop) (Q : ℕ → B → Prop) (n : ℕ)
    (hstep : ∀ b i b', i < n → Inv b → step b i = .ok b' → Inv b' ∧ Q i b' ∧ ∀ k, k ≠ i → Q k b → Q k b')
    (b0 b : B) (h0 : Inv b0) (h : (List.range n).foldlM step b0 = .ok b) : Inv b ∧ ∀ k < n, Q k b := by
  have : ∀ m ≤ n, ∀ b, (List.range m).foldlM step b0 = .ok b → Inv b ∧ ∀ k < m, Q k b := by
    intro m
    induction m with
    | zero =>
      intro _ b hb
      simp only [List.range_zero, List.foldlM_nil] at hb
      cases hb
      exact ⟨h0, by intro k hk; omega⟩
    | succ m ih =>
      intro hm b hb
      rw [List.range_succ, List.foldlM_append] at hb
      cases hmid : (List.range m).foldlM step b0 with
      | error e => rw [hmid] at hb; exact absurd hb (by simp [bind, Except.bind])
      | ok c =>
        rw [hmid] at hb
        simp only [bind, Except.bind, List.foldlM_cons, List.foldlM_nil] at hb
        obtain ⟨hI, hQ⟩ := ih (by omega) c hmid
        cases hs : step c m with
        | error e => rw [hs] at hb; exact absurd hb (by simp)
        | ok d =>
          rw [hs] at hb
          cases hb
          obtain ⟨a, b1, c1⟩ := hstep c m _ (by omega) hI hs
          refine ⟨a, ?_⟩
          intro k hk
          by_cases hkm : k = m
          · subst hkm; exact b1
          · exact c1 k hkm (hQ k (by omega))
  exact this n le_rfl b h

theorem mapM_ok_iff {α β : Type} (f : α → Except Err β) (l : List α) (r : List β) (h : l.mapM f = .ok r) :
    r.length = l.length ∧ ∀ (k : ℕ) (a : α) (b : β), l[k]? = some a → r[k]? = some b → f a = .ok b := by
  induction l generalizing r with
  | nil =>
    simp only [List.mapM_nil] at h
    cases h
    simp
  | cons a l ih =>
    rw [List.mapM_cons] at h
    cases ha : f a with
    | error e => rw [ha] at h; exact absurd h (by simp [bind, Except.bind])
    | ok b =>
      rw [ha] at h
      cases hl : l.mapM f with
      | error e => rw [hl] at h; exact absurd h (by simp [bind, Except.bind])
      | ok r' =>
        rw [hl] at h
        simp only [bind, Except.bind, pure, Except.pure] at h
        cases h
        obtain ⟨h1, h2⟩ := ih r' hl
        refine ⟨by simp [h1], ?_⟩
        intro k a' b' hk hk'
        cases k with
        | zero => simp at hk hk'; subst hk; subst hk'; exact ha
        | succ k => exact h2 k a' b' (by simpa using hk) (by simpa using hk')

theorem itemAt_ok {α : Type} {l : List α} {i : ℕ} {v : α} (h : itemAt l i = .ok v) : l[i]? = some v := by
  unfold itemAt at h
  split at h
  · rename_i w hw; cases h; exact hw
  · exact absurd h (by simp)

theorem gridAt_ok {g : List (CutTable ℝ (List (FV ℝ)))} {mi i j : ℕ} {v : FV ℝ} (h : gridAt g mi i j = .ok v) :
    ∃ t row, g[mi]? = some t ∧ t.cut[i]? = some row ∧ row[j]? = some v := by
  unfold gridAt at h
  split at h
  · exact absurd h (by simp)
  · rename_i t ht
    split at h
    · exact absurd h (by simp)
    · rename_i row hrow
      split at h
      · exact absurd h (by simp)
      · rename_i w hw
        cases h
        exact ⟨t, row, ht, hrow, hw⟩

/-! ## rows of tables -/

/-- all columns of the table have `n` entries -/
def Rect (t : Table (FV ℝ)) (n : ℕ) : Prop := ∀ c ∈ t.cols, c.2.length = n

theorem setRow_ok {t o t' : Table (FV ℝ)} {i n : ℕ} (ht : Rect t n) (ho : Rect o n) (hi : i < n)
    (h : t.setRow i o = .ok t') :
    t.cols.length = o.cols.length ∧ t'.names = t.names ∧ Rect t' n ∧
    ∀ (m : ℕ) (c c' d : String × List (FV ℝ)), t.cols[m]? = some c → t'.cols[m]? = some c' → o.cols[m]? = some d →
      c'.2[i]? = d.2[i]? ∧ ∀ k, k ≠ i → c'.2[k]? = c.2[k]? := by
  unfold Table.setRow at h
  split at h
  · exact absurd h (by simp)
  · rename_i hlen
    simp only [ne_eq, Decidable.not_not] at hlen
    cases h
    refine ⟨hlen, ?_, ?_, ?_⟩
    · unfold Table.names
      simp only [List.map_zipWith]
      apply List.ext_getElem?
      intro m
      simp only [List.getElem?_zipWith, List.getElem?_map]
      cases h1 : t.cols[m]? with
      | none => simp
      | some c =>
        have hm : m < o.cols.length := by rw [← hlen]; exact (List.getElem?_eq_some_iff.mp h1).1
        simp [List.getElem?_eq_getElem hm]
    · intro c hc
      rw [List.mem_iff_getElem?] at hc
      obtain ⟨m, hm⟩ := hc
      simp only [List.getElem?_zipWith] at hm
      split at hm
      · rename_i c1 o1 h1 h2
        cases hm
        simp only []
        split
        · rw [List.length_set]; exact ht _ (List.mem_of_getElem? h1)
        · exact ht _ (List.mem_of_getElem? h1)
      · exact absurd hm (by simp)
    · intro m c c' d h1 h2 h3
      simp only [List.getElem?_zipWith, h1, h3, Option.some.injEq] at h2
      subst h2
      have hd : i < d.2.length := by rw [ho _ (List.mem_of_getElem? h3)]; exact hi
      have hc : i < c.2.length := by rw [ht _ (List.mem_of_getElem? h1)]; exact hi
      simp only [List.getElem?_eq_getElem hd]
      refine ⟨by simp [hc], ?_⟩
      intro k hk
      rw [List.getElem?_set_ne (Ne.symm hk)]

/-- the last column is called `name` -/
def LastCol (t : Table (FV ℝ)) (name : String) : Prop := ∃ init col, t.cols = init ++ [(name, col)] ∧ name ∉ init.map Prod.fst

theorem lastCol_get {t : Table (FV ℝ)} {name : String} (h : LastCol t name) :
    ∃ col, t.get name = .ok col ∧ t.cols[t.cols.length - 1]? = some (name, col) := by
  obtain ⟨init, col, he, hn⟩ := h
  refine ⟨col, ?_, by rw [he]; simp⟩
  unfold Table.get
  rw [he, List.find?_append]
  have : init.find? (fun c => decide (c.1 = name)) = none := by
    rw [List.find?_eq_none]
    intro c hc h2
    exact hn (List.mem_map.mpr ⟨c, hc, by simpa using h2⟩)
  rw [this]; simp

theorem lastCol_names {t t' : Table (FV ℝ)} {name : String} (h : LastCol t name) (hn : t'.names = t.names) :
    LastCol t' name := by
  obtain ⟨init, col, he, hm⟩ := h
  have hnm : t'.names = init.map Prod.fst ++ [name] := by rw [hn]; unfold Table.names; rw [he]; simp
  unfold Table.names at hnm
  have hne : t'.cols ≠ [] := by intro h0; rw [h0] at hnm; simp at hnm
  have hd := List.dropLast_append_getLast hne
  refine ⟨t'.cols.dropLast, (t'.cols.getLast hne).2, ?_, ?_⟩
  · rw [← hd, List.map_append] at hnm
    have := (List.append_inj_right' hnm (by simp))
    simp at this
    conv_lhs => rw [← hd]
    rw [← this]
  · rw [← hd, List.map_append] at hnm
    have := (List.append_inj_left' hnm (by simp))
    rw [this]; exact hm

/-- equal names: the column of a name is at the same position -/
theorem get_pos {t : Table (FV ℝ)} {name : String} {col : List (FV ℝ)} (h : t.get name = .ok col) :
    ∃ m, t.names.findIdx? (fun c => decide (c = name)) = some m ∧ t.cols[m]? = some (name, col) := by
  unfold Table.get at h
  unfold Table.names
  generalize t.cols = l at h
  induction l with
  | nil => simp at h
  | cons c l ih =>
    rw [List.find?_cons] at h
    by_cases hc : c.1 = name
    · simp only [hc, decide_true] at h
      cases h
      refine ⟨0, by simp [List.findIdx?_cons, hc], ?_⟩
      rw [← hc]; rfl
    · simp only [hc, decide_false] at h
      obtain ⟨m, h1, h2⟩ := ih h
      refine ⟨m + 1, ?_, by simpa using h2⟩
      simp [List.findIdx?_cons, hc, h1]

theorem get_of_pos {t : Table (FV ℝ)} {name : String} {m : ℕ}
    (h : t.names.findIdx? (fun c => decide (c = name)) = some m) :
    ∃ col, t.get name = .ok col ∧ t.cols[m]? = some (name, col) := by
  unfold Table.names at h
  unfold Table.get
  generalize t.cols = l at h
  induction l generalizing m with
  | nil => simp at h
  | cons c l ih =>
    rw [List.find?_cons]
    by_cases hc : c.1 = name
    · simp only [hc, decide_true]
      simp [List.findIdx?_cons, hc] at h
      subst h
      exact ⟨c.2, rfl, by rw [← hc]; rfl⟩
    · simp only [hc, decide_false]
      simp [List.findIdx?_cons, hc] at h
      obtain ⟨m', h1, h2⟩ := h
      obtain ⟨col, h3, h4⟩ := ih (m := m') (by simpa using h1)
      refine ⟨col, h3, ?_⟩
      rw [← h2]; simpa using h4

end Pyirf.CutOpt
