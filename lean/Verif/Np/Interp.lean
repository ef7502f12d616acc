import Verif.Np.FV
import Mathlib.Tactic.FieldSimp
import Mathlib.Tactic.Positivity

/-! # numpy contract: `np.interp` -/
set_option linter.unusedSectionVars false

namespace Pyirf.Np
variable {K : Type*} [Field K] [LinearOrder K]

/-- Between two nodes: on the line through the first node; if that is NaN, on the line through the second one, and if that is NaN too but the
values agree, their common value (numpy/core/src/multiarray/compiled_base.c, `arr_interp`). -/
def interpSegment (x0 f0 x1 f1 x : FV K) : FV K :=
  let slope := (f1 - f0) / (x1 - x0)
  let d := slope * (x - x0) + f0
  if d.isNan then
    let d' := slope * (x - x1) + f1
    if d'.isNan && FV.beq f0 f1 then f0 else d'
  else d

/-- The search part of `np.interp`: nodes are (x, f) pairs, `x` is not below the first node. -/
def interpGo : List (FV K × FV K) → FV K → FV K
  | [], _ => .nan
  | [(_, f0)], _ => f0
  | (x0, f0) :: (x1, f1) :: l, x =>
    if FV.lt x x1 then
      (if FV.beq x x0 then f0 else interpSegment x0 f0 x1 f1 x)
    else interpGo ((x1, f1) :: l) x

/-- `np.interp(x, xp, fp)` for increasing `xp`: linear between the nodes, constant outside, NaN for NaN. (numpy raises
ValueError for empty `xp`; here NaN.) -/
def interp (nodes : List (FV K × FV K)) (x : FV K) : FV K :=
  if x.isNan then .nan else
  match nodes with
  | [] => .nan
  | (x0, f0) :: l => if FV.lt x x0 then f0 else interpGo ((x0, f0) :: l) x

/-! ## Lemmas -/

/-- strictly increasing finite nodes -/
def SortedNodes (nodes : List (K × K)) : Prop := (nodes.map Prod.fst).Pairwise (· < ·)

/-- embedding of finite nodes -/
def finNodes (nodes : List (K × K)) : List (FV K × FV K) := nodes.map fun e => (.fin e.1, .fin e.2)

variable [IsStrictOrderedRing K]

omit [IsStrictOrderedRing K] in
theorem interpSegment_fin {x0 x1 : K} (f0 f1 x : K) (h : x1 - x0 ≠ 0) :
    interpSegment (.fin x0) (.fin f0) (.fin x1) (.fin f1) (.fin x) = .fin ((f1 - f0) / (x1 - x0) * (x - x0) + f0) := by
  unfold interpSegment
  simp only [FV.fin_sub_fin]
  rw [FV.fin_div_fin _ _ h]
  simp

theorem interpGo_node (nodes : List (K × K)) (hs : SortedNodes nodes) (i : ℕ) (hi : i < nodes.length) :
    interpGo (finNodes nodes) (.fin nodes[i].1) = .fin nodes[i].2 := by
  induction nodes generalizing i with
  | nil => simp at hi
  | cons n0 l ih =>
    cases l with
    | nil =>
      simp only [List.length_cons, List.length_nil] at hi
      have : i = 0 := by omega
      subst this
      simp [finNodes, interpGo]
    | cons n1 l =>
      unfold SortedNodes at hs
      simp only [List.map_cons, List.pairwise_cons] at hs
      cases i with
      | zero =>
        have h01 : n0.1 < n1.1 := hs.1 _ (by simp)
        simp [finNodes, interpGo, h01, FV.beq]
      | succ i =>
        have hi2 : i < (n1 :: l).length := by simpa using hi
        have hle : n1.1 ≤ (n1 :: l)[i].1 := by
          cases i with
          | zero => simp
          | succ i => exact (hs.2.1 _ (List.mem_map_of_mem (List.getElem_mem _))).le
        have := ih (by unfold SortedNodes; simp only [List.map_cons, List.pairwise_cons]; exact hs.2) i
          (by simpa using hi)
        simp only [finNodes, List.map_cons, interpGo, List.getElem_cons_succ, FV.lt_fin, decide_eq_true_eq] at this ⊢
        rw [if_neg (not_lt.mpr hle)]
        exact this

/-- `np.interp` returns the node value at a node -/
theorem interp_node (nodes : List (K × K)) (hs : SortedNodes nodes) (i : ℕ) (hi : i < nodes.length) :
    interp (finNodes nodes) (.fin nodes[i].1) = .fin nodes[i].2 := by
  have h := interpGo_node nodes hs i hi
  cases nodes with
  | nil => simp at hi
  | cons n0 l =>
    have hle : n0.1 ≤ (n0 :: l)[i].1 := by
      unfold SortedNodes at hs
      simp only [List.map_cons, List.pairwise_cons] at hs
      cases i with
      | zero => simp
      | succ i => exact (hs.1 _ (List.mem_map_of_mem (List.getElem_mem _))).le
    unfold interp
    simp only [finNodes, List.map_cons, FV.isNan_fin, Bool.false_eq_true, if_false, FV.lt_fin, decide_eq_true_eq] at h ⊢
    rw [if_neg (not_lt.mpr hle)]
    exact h

/-- value of `np.interp` as a number: between bounds of the node values -/
theorem interpGo_bounds (nodes : List (K × K)) (hs : SortedNodes nodes) (x : K)
    (hx : ∀ n ∈ nodes.head?, n.1 ≤ x) (hn : nodes ≠ []) (lo hi : K) (hb : ∀ n ∈ nodes, lo ≤ n.2 ∧ n.2 ≤ hi) :
    ∃ v, interpGo (finNodes nodes) (.fin x) = .fin v ∧ lo ≤ v ∧ v ≤ hi := by
  induction nodes with
  | nil => exact absurd rfl hn
  | cons n0 l ih =>
    cases l with
    | nil => exact ⟨n0.2, by simp [finNodes, interpGo], hb n0 (by simp)⟩
    | cons n1 l =>
      unfold SortedNodes at hs
      simp only [List.map_cons, List.pairwise_cons] at hs
      have h01 : n0.1 < n1.1 := hs.1 _ (by simp)
      have hx0 : n0.1 ≤ x := hx n0 (by simp)
      simp only [finNodes, List.map_cons, interpGo, FV.lt_fin, decide_eq_true_eq]
      by_cases hlt : x < n1.1
      · rw [if_pos hlt]
        by_cases he : x = n0.1
        · subst he
          exact ⟨n0.2, by simp [FV.beq], hb n0 (by simp)⟩
        · have hne : FV.beq (FV.fin x) (FV.fin n0.1) = false := by
            simp only [FV.beq, FV.le_fin]
            have : ¬ x ≤ n0.1 := fun h => he (le_antisymm h hx0)
            simp [this]
          have hd : n1.1 - n0.1 ≠ 0 := sub_ne_zero.mpr h01.ne'
          rw [hne]
          simp only [Bool.false_eq_true, if_false]
          rw [interpSegment_fin _ _ _ hd]
          refine ⟨_, rfl, ?_⟩
          have hdp : 0 < n1.1 - n0.1 := sub_pos.mpr h01
          have hb0 := hb n0 (by simp)
          have hb1 := hb n1 (by simp)
          set t := (x - n0.1) / (n1.1 - n0.1) with ht
          have ht0 : 0 ≤ t := div_nonneg (by linarith) hdp.le
          have ht1 : t ≤ 1 := by rw [ht, div_le_one hdp]; linarith
          have e : (n1.2 - n0.2) / (n1.1 - n0.1) * (x - n0.1) + n0.2 = (1 - t) * n0.2 + t * n1.2 := by
            rw [ht]; field_simp; ring
          rw [e]
          constructor <;> nlinarith
      · rw [if_neg hlt]
        have := ih (by unfold SortedNodes; simp only [List.map_cons, List.pairwise_cons]; exact hs.2)
          (by intro n hn; simp at hn; subst hn; exact not_lt.mp hlt) (by simp)
          (fun n hn => hb n (by simp [hn]))
        simpa [finNodes] using this

theorem interp_bounds (nodes : List (K × K)) (hs : SortedNodes nodes) (x : K) (hn : nodes ≠ []) (lo hi : K)
    (hb : ∀ n ∈ nodes, lo ≤ n.2 ∧ n.2 ≤ hi) :
    ∃ v, interp (finNodes nodes) (.fin x) = .fin v ∧ lo ≤ v ∧ v ≤ hi := by
  cases nodes with
  | nil => exact absurd rfl hn
  | cons n0 l =>
    unfold interp
    simp only [finNodes, List.map_cons, FV.isNan_fin, Bool.false_eq_true, if_false, FV.lt_fin, decide_eq_true_eq]
    by_cases h : x < n0.1
    · rw [if_pos h]; exact ⟨_, rfl, hb n0 (by simp)⟩
    · rw [if_neg h]
      have := interpGo_bounds (n0 :: l) hs x (by intro n hn; simp at hn; subst hn; exact not_lt.mp h) (by simp) lo hi hb
      simpa [finNodes] using this

/-- larger node values give a larger interpolated value -/
theorem interpGo_mono (xs : List K) (fs gs : List K) (hs : xs.Pairwise (· < ·)) (hfl : fs.length = xs.length)
    (hgl : gs.length = xs.length) (hfg : List.Forall₂ (· ≤ ·) fs gs) (x : K) (hx : ∀ n ∈ xs.head?, n ≤ x)
    (hn : xs ≠ []) :
    ∃ v w, interpGo (finNodes (xs.zip fs)) (.fin x) = .fin v ∧ interpGo (finNodes (xs.zip gs)) (.fin x) = .fin w ∧
      v ≤ w := by
  induction xs generalizing fs gs with
  | nil => exact absurd rfl hn
  | cons x0 l ih =>
    match fs, gs, hfg with
    | [], _, _ => simp at hfl
    | f0 :: fs, g0 :: gs, .cons h0 hfg =>
      cases l with
      | nil => exact ⟨f0, g0, by simp [finNodes, interpGo], by simp [finNodes, interpGo], h0⟩
      | cons x1 l =>
        match fs, gs, hfg with
        | [], _, _ => simp at hfl
        | f1 :: fs, g1 :: gs, .cons h1 hfg =>
          simp only [List.pairwise_cons] at hs
          have h01 : x0 < x1 := hs.1 _ (by simp)
          have hx0 : x0 ≤ x := hx x0 (by simp)
          simp only [List.zip_cons_cons, finNodes, List.map_cons, interpGo, FV.lt_fin, decide_eq_true_eq]
          by_cases hlt : x < x1
          · simp only [if_pos hlt]
            by_cases he : x = x0
            · subst he
              exact ⟨f0, g0, by simp [FV.beq], by simp [FV.beq], h0⟩
            · have hne : FV.beq (FV.fin x) (FV.fin x0) = false := by
                simp only [FV.beq, FV.le_fin]
                have : ¬ x ≤ x0 := fun h => he (le_antisymm h hx0)
                simp [this]
              have hd : x1 - x0 ≠ 0 := sub_ne_zero.mpr h01.ne'
              have hdp : 0 < x1 - x0 := sub_pos.mpr h01
              rw [hne]
              simp only [Bool.false_eq_true, if_false]
              rw [interpSegment_fin _ _ _ hd, interpSegment_fin _ _ _ hd]
              refine ⟨_, _, rfl, rfl, ?_⟩
              set t := (x - x0) / (x1 - x0) with ht
              have ht0 : 0 ≤ t := div_nonneg (by linarith) hdp.le
              have ht1 : t ≤ 1 := by rw [ht, div_le_one hdp]; linarith
              have e : ∀ a b : K, (b - a) / (x1 - x0) * (x - x0) + a = (1 - t) * a + t * b := by
                intro a b; rw [ht]; field_simp; ring
              rw [e, e]
              nlinarith
          · simp only [if_neg hlt]
            have := ih (f1 :: fs) (g1 :: gs) (by simp only [List.pairwise_cons]; exact hs.2)
              (by simpa using hfl) (by simpa using hgl) (.cons h1 hfg)
              (by intro n hn; simp at hn; subst hn; exact not_lt.mp hlt) (by simp)
            simpa [finNodes] using this

theorem interp_mono (xs : List K) (fs gs : List K) (hs : xs.Pairwise (· < ·)) (hfl : fs.length = xs.length)
    (hgl : gs.length = xs.length) (hfg : List.Forall₂ (· ≤ ·) fs gs) (x : K) (hn : xs ≠ []) :
    ∃ v w, interp (finNodes (xs.zip fs)) (.fin x) = .fin v ∧ interp (finNodes (xs.zip gs)) (.fin x) = .fin w ∧
      v ≤ w := by
  match xs, fs, gs, hfg with
  | [], _, _, _ => exact absurd rfl hn
  | x0 :: xs, [], _, _ => simp at hfl
  | x0 :: xs, f0 :: fs, g0 :: gs, .cons h0 hfg =>
    unfold interp
    simp only [finNodes, List.zip_cons_cons, List.map_cons, FV.isNan_fin, Bool.false_eq_true, if_false, FV.lt_fin,
      decide_eq_true_eq]
    by_cases h : x < x0
    · simp only [if_pos h]; exact ⟨_, _, rfl, rfl, h0⟩
    · simp only [if_neg h]
      have := interpGo_mono (x0 :: xs) (f0 :: fs) (g0 :: gs) hs hfl hgl (.cons h0 hfg) x
        (by intro n hn; simp at hn; subst hn; exact not_lt.mp h) hn
      simpa [finNodes] using this

/-- `np.interp` returns the node value at a node, whatever the node values (also NaN and infinities) -/
theorem interpGo_node_any (xs : List K) (fs : List (FV K)) (hs : xs.Pairwise (· < ·)) (hl : fs.length = xs.length) (i : ℕ)
    (x : K) (f : FV K) (hx : xs[i]? = some x) (hf : fs[i]? = some f) :
    interpGo ((xs.map FV.fin).zip fs) (.fin x) = f := by
  induction xs generalizing fs i with
  | nil => simp at hx
  | cons x0 l ih =>
    match fs, hl with
    | [], hl => simp at hl
    | f0 :: fs, hl =>
      cases l with
      | nil =>
        cases fs with
        | cons => simp at hl
        | nil =>
          cases i with
          | zero => simp at hf; subst hf; simp [interpGo]
          | succ i => simp at hx
      | cons x1 l =>
        match fs, hl with
        | [], hl => simp at hl
        | f1 :: fs, hl =>
          simp only [List.pairwise_cons] at hs
          have h01 : x0 < x1 := hs.1 _ (by simp)
          cases i with
          | zero =>
            simp at hx hf
            subst hx; subst hf
            simp [interpGo, h01, FV.beq]
          | succ i =>
            have hle : x1 ≤ x := by
              cases i with
              | zero => simp at hx; exact hx.le
              | succ i =>
                simp only [List.getElem?_cons_succ] at hx
                exact (hs.2.1 _ (List.mem_of_getElem? hx)).le
            have := ih (f1 :: fs) (by simp only [List.pairwise_cons]; exact hs.2) (by simpa using hl) i (by simpa using hx)
              (by simpa using hf)
            simp only [List.map_cons, List.zip_cons_cons, interpGo, FV.lt_fin, decide_eq_true_eq] at this ⊢
            rw [if_neg (not_lt.mpr hle)]
            exact this

theorem interp_node_any (xs : List K) (fs : List (FV K)) (hs : xs.Pairwise (· < ·)) (hl : fs.length = xs.length) (i : ℕ)
    (x : K) (f : FV K) (hx : xs[i]? = some x) (hf : fs[i]? = some f) : interp ((xs.map FV.fin).zip fs) (.fin x) = f := by
  have h := interpGo_node_any xs fs hs hl i x f hx hf
  match xs, fs, hl with
  | [], _, _ => simp at hx
  | x0 :: l, [], hl => simp at hl
  | x0 :: l, f0 :: fs, hl =>
    have hle : x0 ≤ x := by
      simp only [List.pairwise_cons] at hs
      cases i with
      | zero => simp at hx; exact hx.le
      | succ i =>
        simp only [List.getElem?_cons_succ] at hx
        exact (hs.1 _ (List.mem_of_getElem? hx)).le
    unfold interp
    simp only [List.map_cons, List.zip_cons_cons, FV.isNan_fin, Bool.false_eq_true, if_false, FV.lt_fin,
      decide_eq_true_eq] at h ⊢
    rw [if_neg (not_lt.mpr hle)]
    exact h

/-! ### Nodes of which the last one may be infinite -/

/-- Strictly increasing numbers, the last of which may be +inf. -/
def Increasing1 (xs : List (FV K)) : Prop := (∀ x ∈ xs, x ≠ .nan ∧ x ≠ .ninf) ∧ xs.Pairwise (fun a b => FV.lt a b = true)

omit [IsStrictOrderedRing K] in
theorem Increasing1.tail {x : FV K} {xs : List (FV K)} (h : Increasing1 (x :: xs)) : Increasing1 xs :=
  ⟨fun y hy => h.1 y (by simp [hy]), (List.pairwise_cons.mp h.2).2⟩

/-- Between two nodes `np.interp` is a weighted mean of the node values, with weights that do not depend on the values. -/
theorem interpGo_weights (xs : List (FV K)) (hs : Increasing1 xs) (hn : xs ≠ []) (x : FV K)
    (hx : ∀ n ∈ xs.head?, FV.le n x = true) :
    ∃ (i j : ℕ) (t : K), i < xs.length ∧ j < xs.length ∧ 0 ≤ t ∧ t ≤ 1 ∧ ∀ fs : List K, fs.length = xs.length →
      interpGo (xs.zip (fs.map FV.fin)) x = .fin ((1 - t) * fs.getD i 0 + t * fs.getD j 0) := by
  induction xs with
  | nil => exact absurd rfl hn
  | cons x0 l ih =>
    cases l with
    | nil =>
      refine ⟨0, 0, 0, by simp, by simp, le_rfl, zero_le_one, ?_⟩
      intro fs hf
      match fs, hf with
      | [f], _ => simp [interpGo]
    | cons x1 l =>
      have h01 : FV.lt x0 x1 = true := (List.pairwise_cons.mp hs.2).1 _ (by simp)
      have hx0 : FV.le x0 x = true := hx x0 (by simp)
      by_cases hlt : FV.lt x x1 = true
      · by_cases he : FV.beq x x0 = true
        · refine ⟨0, 0, 0, by simp, by simp, le_rfl, zero_le_one, ?_⟩
          intro fs hf
          match fs, hf with
          | f0 :: f1 :: fs, _ =>
            simp only [List.map_cons, List.zip_cons_cons, interpGo, if_pos hlt, if_pos he]
            simp
        · have hxn := FV.ne_nan_of_lt hlt
          have h0 := hs.1 x0 (by simp)
          cases x0 with
          | nan => exact absurd rfl h0.1
          | ninf => exact absurd rfl h0.2
          | pinf => cases x1 <;> simp [FV.lt] at h01
          | fin a =>
            cases x with
            | nan => exact absurd rfl hxn.1
            | ninf => simp [FV.le] at hx0
            | pinf => cases x1 <;> simp [FV.lt] at hlt
            | fin b =>
              cases x1 with
              | nan => exact absurd rfl hxn.2
              | ninf => simp [FV.lt] at hlt
              | pinf =>
                refine ⟨0, 0, 0, by simp, by simp, le_rfl, zero_le_one, ?_⟩
                intro fs hf
                match fs, hf with
                | f0 :: f1 :: fs, _ =>
                  simp only [List.map_cons, List.zip_cons_cons, interpGo, if_pos hlt, if_neg he]
                  have e1 : (FV.pinf - FV.fin a : FV K) = .pinf := rfl
                  have e2 : (FV.fin (f1 - f0) / FV.pinf : FV K) = .fin 0 := rfl
                  have e3 : (FV.fin 0 * FV.fin (b - a) + FV.fin f0 : FV K) = .fin f0 := by
                    rw [FV.fin_mul_fin, FV.fin_add_fin]; simp
                  simp only [interpSegment, e1, FV.fin_sub_fin, e2, e3]
                  simp
              | fin d =>
                have hab : a ≤ b := by simpa using hx0
                have hbd : b < d := by simpa using hlt
                have hd : d - a ≠ 0 := sub_ne_zero.mpr (lt_of_le_of_lt hab hbd).ne'
                have hdp : 0 < d - a := sub_pos.mpr (lt_of_le_of_lt hab hbd)
                refine ⟨0, 1, (b - a) / (d - a), by simp, by simp, div_nonneg (by linarith) hdp.le, ?_, ?_⟩
                · rw [div_le_one hdp]; linarith
                · intro fs hf
                  match fs, hf with
                  | f0 :: f1 :: fs, _ =>
                    simp only [List.map_cons, List.zip_cons_cons, interpGo, if_pos hlt, if_neg he]
                    rw [interpSegment_fin _ _ _ hd]
                    simp only [List.getD_cons_zero, List.getD_cons_succ]
                    congr 1
                    field_simp
                    ring
      · have hle : FV.le x1 x = true := by
          have := FV.ne_nan_of_lt h01
          rcases FV.le_or_lt' this.2 (FV.ne_nan_of_le hx0).2 with h | h
          · exact h
          · exact absurd h hlt
        obtain ⟨i, j, t, hi, hj, ht0, ht1, hv⟩ := ih hs.tail (by simp) (by intro n hn; simp at hn; subst hn; exact hle)
        refine ⟨i + 1, j + 1, t, by simpa using hi, by simpa using hj, ht0, ht1, ?_⟩
        intro fs hf
        match fs, hf with
        | f0 :: f1 :: fs, hf =>
          simp only [List.map_cons, List.zip_cons_cons, interpGo, if_neg hlt]
          have := hv (f1 :: fs) (by simpa using hf)
          simp only [List.map_cons, List.zip_cons_cons] at this
          rw [this]
          simp only [List.getD_cons_succ]

/-- `np.interp` is a weighted mean of two node values, with weights that do not depend on the values. -/
theorem interp_weights (xs : List (FV K)) (hs : Increasing1 xs) (hn : xs ≠ []) (x : FV K) (hx : x ≠ .nan) :
    ∃ (i j : ℕ) (t : K), i < xs.length ∧ j < xs.length ∧ 0 ≤ t ∧ t ≤ 1 ∧ ∀ fs : List K, fs.length = xs.length →
      interp (xs.zip (fs.map FV.fin)) x = .fin ((1 - t) * fs.getD i 0 + t * fs.getD j 0) := by
  have hnan : x.isNan = false := by cases x <;> simp_all [FV.isNan]
  match xs, hn with
  | x0 :: l, _ =>
    by_cases hlt : FV.lt x x0 = true
    · refine ⟨0, 0, 0, by simp, by simp, le_rfl, zero_le_one, ?_⟩
      intro fs hf
      match fs, hf with
      | f0 :: fs, _ => simp [interp, hnan, hlt]
    · have hle : FV.le x0 x = true := by
        rcases FV.le_or_lt' (hs.1 x0 (by simp)).1 hx with h | h
        · exact h
        · exact absurd h hlt
      obtain ⟨i, j, t, hi, hj, ht0, ht1, hv⟩ := interpGo_weights (x0 :: l) hs (by simp) x (by intro n hn; simp at hn; subst hn; exact hle)
      refine ⟨i, j, t, hi, hj, ht0, ht1, ?_⟩
      intro fs hf
      match fs, hf with
      | f0 :: fs, hf =>
        rw [← hv (f0 :: fs) hf]
        simp [interp, hnan, hlt]

theorem interpFV_bounds (xs : List (FV K)) (hs : Increasing1 xs) (hn : xs ≠ []) (x : FV K) (hx : x ≠ .nan) (fs : List K)
    (hl : fs.length = xs.length) (lo hi : K) (hb : ∀ f ∈ fs, lo ≤ f ∧ f ≤ hi) :
    ∃ v, interp (xs.zip (fs.map FV.fin)) x = .fin v ∧ lo ≤ v ∧ v ≤ hi := by
  obtain ⟨i, j, t, hi', hj', ht0, ht1, hv⟩ := interp_weights xs hs hn x hx
  have hg : ∀ k, k < xs.length → lo ≤ fs.getD k 0 ∧ fs.getD k 0 ≤ hi := by
    intro k hk
    rw [List.getD_eq_getElem?_getD, List.getElem?_eq_getElem (by omega)]
    exact hb _ (List.getElem_mem _)
  refine ⟨_, hv fs hl, ?_, ?_⟩
  · have h1 := (hg i hi').1
    have h2 := (hg j hj').1
    nlinarith
  · have h1 := (hg i hi').2
    have h2 := (hg j hj').2
    nlinarith

theorem interpFV_mono (xs : List (FV K)) (hs : Increasing1 xs) (hn : xs ≠ []) (x : FV K) (hx : x ≠ .nan) (fs gs : List K)
    (hfl : fs.length = xs.length) (hgl : gs.length = xs.length) (hfg : List.Forall₂ (· ≤ ·) fs gs) :
    ∃ v w, interp (xs.zip (fs.map FV.fin)) x = .fin v ∧ interp (xs.zip (gs.map FV.fin)) x = .fin w ∧ v ≤ w := by
  obtain ⟨i, j, t, hi', hj', ht0, ht1, hv⟩ := interp_weights xs hs hn x hx
  have hg : ∀ k, k < xs.length → fs.getD k 0 ≤ gs.getD k 0 := by
    intro k hk
    rw [List.getD_eq_getElem?_getD, List.getD_eq_getElem?_getD, List.getElem?_eq_getElem (by omega), List.getElem?_eq_getElem (by omega)]
    exact (List.forall₂_iff_get.mp hfg).2 k (by omega) (by omega)
  refine ⟨_, _, hv fs hfl, hv gs hgl, ?_⟩
  have h1 := hg i hi'
  have h2 := hg j hj'
  nlinarith

omit [IsStrictOrderedRing K] in
/-- `np.interp` returns the node value at a node, whatever the node values (also NaN and infinities) -/
theorem interpGo_node_fv (xs : List (FV K)) (fs : List (FV K)) (hs : Increasing1 xs) (hl : fs.length = xs.length) (i : ℕ)
    (x : FV K) (f : FV K) (hx : xs[i]? = some x) (hf : fs[i]? = some f) : interpGo (xs.zip fs) x = f := by
  induction xs generalizing fs i with
  | nil => simp at hx
  | cons x0 l ih =>
    match fs, hl with
    | [], hl => simp at hl
    | f0 :: fs, hl =>
      cases l with
      | nil =>
        cases fs with
        | cons => simp at hl
        | nil =>
          cases i with
          | zero => simp at hf; subst hf; simp [interpGo]
          | succ i => simp at hx
      | cons x1 l =>
        match fs, hl with
        | [], hl => simp at hl
        | f1 :: fs, hl =>
          have h01 : FV.lt x0 x1 = true := (List.pairwise_cons.mp hs.2).1 _ (by simp)
          cases i with
          | zero =>
            simp at hx hf
            subst hx; subst hf
            have hb : FV.beq x0 x0 = true := (FV.beq_iff _ _).mpr ⟨rfl, (hs.1 x0 (by simp)).1⟩
            simp [interpGo, h01, hb]
          | succ i =>
            have hle : FV.le x1 x = true := by
              cases i with
              | zero => simp at hx; subst hx; exact FV.le_refl' (hs.1 _ (by simp)).1
              | succ i =>
                simp only [List.getElem?_cons_succ] at hx
                exact FV.le_of_lt' ((List.pairwise_cons.mp hs.tail.2).1 _ (List.mem_of_getElem? hx))
            have := ih (f1 :: fs) hs.tail (by simpa using hl) i (by simpa using hx) (by simpa using hf)
            simp only [List.zip_cons_cons, interpGo] at this ⊢
            rw [FV.not_lt_of_le hle]
            simpa using this

omit [IsStrictOrderedRing K] in
theorem interp_node_fv (xs : List (FV K)) (fs : List (FV K)) (hs : Increasing1 xs) (hl : fs.length = xs.length) (i : ℕ)
    (x : FV K) (f : FV K) (hx : xs[i]? = some x) (hf : fs[i]? = some f) : interp (xs.zip fs) x = f := by
  have h := interpGo_node_fv xs fs hs hl i x f hx hf
  match xs, fs, hl with
  | [], _, _ => simp at hx
  | x0 :: l, [], hl => simp at hl
  | x0 :: l, f0 :: fs, hl =>
    have hxn : x ≠ .nan := (hs.1 x (List.mem_of_getElem? hx)).1
    have hnan : x.isNan = false := by cases x <;> simp_all [FV.isNan]
    have hle : FV.le x0 x = true := by
      cases i with
      | zero => simp at hx; subst hx; exact FV.le_refl' hxn
      | succ i =>
        simp only [List.getElem?_cons_succ] at hx
        exact FV.le_of_lt' ((List.pairwise_cons.mp hs.2).1 _ (List.mem_of_getElem? hx))
    unfold interp
    simp only [List.zip_cons_cons, hnan, Bool.false_eq_true, if_false, FV.not_lt_of_le hle] at h ⊢
    exact h

end Pyirf.Np
