import Verif.Utils.Model
import Mathlib.Analysis.SpecialFunctions.Integrals.Basic

/-!
# Properties C68, C69, C72, C76: table checks and solid angles
-/
set_option linter.unusedSectionVars false
set_option linter.unusedSimpArgs false

namespace Pyirf.Utils
open Pyirf MeasureTheory

/-! ## C68: check_table -/

theorem forM_cons' {α : Type*} (f : α → Except Err Unit) (a : α) (l : List α) :
    (a :: l).forM f = (f a).bind fun _ => l.forM f := rfl
theorem forM_nil' {α : Type*} (f : α → Except Err Unit) : ([] : List α).forM f = .ok () := rfl

/-- Unit of the (first) column called `name`; `none` if there is no such column or it has no unit. -/
def unitOf {U : Type*} (columns : List (String × Option U)) (name : String) : Option U :=
  (columns.find? (fun c => c.1 = name)).bind Prod.snd

/-- The table has a column called `name`. -/
def HasColumn {U : Type*} (columns : List (String × Option U)) (name : String) : Prop := ∃ c ∈ columns, c.1 = name

/-- One required unit is fulfilled. -/
def UnitFits {U E : Type*} (equiv : E → U → Bool) (columns : List (String × Option U)) (req : String × E) : Prop :=
  ∃ u, unitOf columns req.1 = some u ∧ equiv req.2 u = true

theorem hasColumn_iff {U : Type*} (columns : List (String × Option U)) (name : String) :
    HasColumn columns name ↔ name ∈ columns.map Prod.fst := by
  unfold HasColumn
  rw [List.mem_map]

theorem checkUnit_cases {U E : Type*} (equiv : E → U → Bool) (columns : List (String × Option U)) (req : String × E) :
    (checkUnit equiv columns req = .ok () ∧ HasColumn columns req.1 ∧ UnitFits equiv columns req) ∨
    (checkUnit equiv columns req = .error .missingColumns ∧ ¬ HasColumn columns req.1 ∧ ¬ UnitFits equiv columns req) ∨
    (checkUnit equiv columns req = .error .wrongColumnUnit ∧ HasColumn columns req.1 ∧
      ∃ u, unitOf columns req.1 = some u ∧ equiv req.2 u = false) ∨
    (checkUnit equiv columns req = .error .typeError ∧ HasColumn columns req.1 ∧ unitOf columns req.1 = none) := by
  unfold checkUnit UnitFits unitOf
  rw [hasColumn_iff]
  by_cases h : req.1 ∈ columns.map Prod.fst
  · rw [if_neg (by simpa using h)]
    cases hf : columns.find? (fun c => decide (c.1 = req.1)) with
    | none =>
      exfalso
      rw [List.find?_eq_none] at hf
      obtain ⟨c, hc, he⟩ := List.mem_map.mp h
      exact hf c hc (by simpa using he)
    | some c =>
      obtain ⟨n, u⟩ := c
      cases u with
      | none => simp [h]
      | some u =>
        cases he : equiv req.2 u <;> simp [h, he]
  · rw [if_pos h]
    have hf : columns.find? (fun c => decide (c.1 = req.1)) = none := by
      rw [List.find?_eq_none]
      intro c hc he
      exact h (List.mem_map.mpr ⟨c, hc, by simpa using he⟩)
    simp [h, hf]

/-- **C68** `check_table` returns exactly if every required column and every key of `required_units` is a column and every
required unit is convertible. -/
theorem C68_accepts_iff {U E : Type*} (equiv : E → U → Bool) (columns : List (String × Option U))
    (reqCols : Option (List String)) (reqUnits : Option (List (String × E))) :
    checkTable equiv columns reqCols reqUnits = .ok () ↔
      (∀ l, reqCols = some l → ∀ c ∈ l, HasColumn columns c) ∧
      (∀ l, reqUnits = some l → ∀ r ∈ l, HasColumn columns r.1 ∧ UnitFits equiv columns r) := by
  have hunits : ∀ l : List (String × E), l.forM (checkUnit equiv columns) = .ok () ↔
      ∀ r ∈ l, HasColumn columns r.1 ∧ UnitFits equiv columns r := by
    intro l
    induction l with
    | nil => simp [forM_nil']
    | cons r l ih =>
      rw [forM_cons']
      rcases checkUnit_cases equiv columns r with ⟨h, h1, h2⟩ | ⟨h, h1, h2⟩ | ⟨h, h1, u, h2, h3⟩ | ⟨h, h1, h2⟩
      · rw [h]
        show l.forM (checkUnit equiv columns) = .ok () ↔ _
        rw [ih]; simp [h1, h2]
      · rw [h]
        constructor
        · intro hh; exact absurd hh (by simp [bind, Except.bind])
        · intro hh; exact absurd (hh r (by simp)).1 h1
      · rw [h]
        constructor
        · intro hh; exact absurd hh (by simp [bind, Except.bind])
        · intro hh
          obtain ⟨u', e1, e2⟩ := (hh r (by simp)).2
          rw [h2] at e1
          cases e1
          rw [h3] at e2; exact absurd e2 (by simp)
      · rw [h]
        constructor
        · intro hh; exact absurd hh (by simp [bind, Except.bind])
        · intro hh
          obtain ⟨u', e1, e2⟩ := (hh r (by simp)).2
          rw [h2] at e1
          exact absurd e1 (by simp)
  have hcols : ∀ l : List String, (l.filter (fun c => decide (c ∉ columns.map Prod.fst))).isEmpty = true ↔
      ∀ c ∈ l, HasColumn columns c := by
    intro l
    rw [List.isEmpty_iff, List.filter_eq_nil_iff]
    simp only [hasColumn_iff, decide_eq_true_eq, not_not]
  unfold checkTable
  cases reqCols with
  | none =>
    cases reqUnits with
    | none => simp
    | some us => simp only [hunits]; simp
  | some l =>
    by_cases hl : ∀ c ∈ l, HasColumn columns c
    · have := (hcols l).mpr hl
      simp only [this, if_true]
      cases reqUnits with
      | none => simpa using hl
      | some us =>
        simp only [hunits]
        constructor
        · intro hh
          refine ⟨?_, ?_⟩
          · rintro _ ⟨⟩; exact hl
          · rintro _ ⟨⟩; exact hh
        · intro hh; exact hh.2 _ rfl
    · have h2 : ¬ (l.filter (fun c => decide (c ∉ columns.map Prod.fst))).isEmpty = true := fun h => hl ((hcols l).mp h)
      simp only [h2]
      constructor
      · intro hh; exact absurd hh (by simp)
      · intro hh; exact absurd (hh.1 l rfl) hl

/-- **C68** A missing entry of `required_columns` always raises MissingColumns (whatever the units). If there is none, the
error is that of the first entry of `required_units` that fails: MissingColumns if the column is absent, WrongColumnUnit if its
unit is not convertible. -/
theorem C68_which_error {U E : Type*} (equiv : E → U → Bool) (columns : List (String × Option U))
    (reqCols : Option (List String)) (reqUnits : Option (List (String × E))) :
    ((∃ l, reqCols = some l ∧ ∃ c ∈ l, ¬ HasColumn columns c) →
      checkTable equiv columns reqCols reqUnits = .error .missingColumns) ∧
    ((∀ l, reqCols = some l → ∀ c ∈ l, HasColumn columns c) →
      ∀ (l1 l2 : List (String × E)) (r : String × E), reqUnits = some (l1 ++ r :: l2) →
      (∀ q ∈ l1, HasColumn columns q.1 ∧ UnitFits equiv columns q) →
      (¬ HasColumn columns r.1 → checkTable equiv columns reqCols reqUnits = .error .missingColumns) ∧
      (∀ u, unitOf columns r.1 = some u → equiv r.2 u = false →
        checkTable equiv columns reqCols reqUnits = .error .wrongColumnUnit)) := by
  have hcols : ∀ l : List String, (l.filter (fun c => decide (c ∉ columns.map Prod.fst))).isEmpty = true ↔
      ∀ c ∈ l, HasColumn columns c := by
    intro l
    rw [List.isEmpty_iff, List.filter_eq_nil_iff]
    simp only [hasColumn_iff, decide_eq_true_eq, not_not]
  have hrest : ∀ (l1 l2 : List (String × E)) (r : String × E) (e : Err),
      (∀ q ∈ l1, HasColumn columns q.1 ∧ UnitFits equiv columns q) → checkUnit equiv columns r = .error e →
      (l1 ++ r :: l2).forM (checkUnit equiv columns) = .error e := by
    intro l1 l2 r e h1 h2
    induction l1 with
    | nil => rw [List.nil_append, forM_cons', h2]; rfl
    | cons q l1 ih =>
      rw [List.cons_append, forM_cons']
      have hq := h1 q (by simp)
      have : checkUnit equiv columns q = .ok () := by
        rcases checkUnit_cases equiv columns q with ⟨h, -⟩ | ⟨h, h1', -⟩ | ⟨h, -, u, h2', h3⟩ | ⟨h, -, h2'⟩
        · exact h
        · exact absurd hq.1 h1'
        · obtain ⟨u', e1, e2⟩ := hq.2
          rw [h2'] at e1; cases e1; rw [h3] at e2; exact absurd e2 (by simp)
        · obtain ⟨u', e1, e2⟩ := hq.2
          rw [h2'] at e1; exact absurd e1 (by simp)
      rw [this]
      exact ih (fun q' hq' => h1 q' (by simp [hq']))
  constructor
  · rintro ⟨l, rfl, c, hc, hn⟩
    have h2 : ¬ (l.filter (fun c => decide (c ∉ columns.map Prod.fst))).isEmpty = true :=
      fun h => hn ((hcols l).mp h c hc)
    unfold checkTable
    simp only [h2]
    rfl
  · intro hok l1 l2 r hr h1
    have hstep : ∀ e, checkUnit equiv columns r = .error e → checkTable equiv columns reqCols reqUnits = .error e := by
      intro e he
      subst hr
      unfold checkTable
      cases reqCols with
      | none => exact hrest _ _ _ _ h1 he
      | some l =>
        simp only [(hcols l).mpr (hok l rfl), if_true]
        exact hrest _ _ _ _ h1 he
    refine ⟨?_, ?_⟩
    · intro hn
      apply hstep
      rcases checkUnit_cases equiv columns r with ⟨h, h', -⟩ | ⟨h, -⟩ | ⟨h, h', -⟩ | ⟨h, h', -⟩
      · exact absurd h' hn
      · exact h
      · exact absurd h' hn
      · exact absurd h' hn
    · intro u hu hf
      apply hstep
      rcases checkUnit_cases equiv columns r with ⟨h, -, u', e1, e2⟩ | ⟨h, h', -⟩ | ⟨h, -⟩ | ⟨h, -, h'⟩
      · rw [hu] at e1; cases e1; rw [hf] at e2; exact absurd e2 (by simp)
      · exfalso
        unfold unitOf at hu
        cases hfi : columns.find? (fun c => decide (c.1 = r.1)) with
        | none => rw [hfi] at hu; exact absurd hu (by simp)
        | some c =>
          have := List.find?_some hfi
          exact h' ⟨c, List.mem_of_find?_eq_some hfi, by simpa using this⟩
      · exact h
      · rw [h'] at hu; exact absurd hu (by simp)

/-- **C68** The order of the columns is irrelevant (column names are unique in a table). -/
theorem C68_column_order {U E : Type*} (equiv : E → U → Bool) (c1 c2 : List (String × Option U)) (hp : c1.Perm c2)
    (hnd : (c1.map Prod.fst).Nodup) (reqCols : Option (List String)) (reqUnits : Option (List (String × E))) :
    checkTable equiv c1 reqCols reqUnits = checkTable equiv c2 reqCols reqUnits := by
  have hmem : ∀ n, n ∈ c1.map Prod.fst ↔ n ∈ c2.map Prod.fst := fun n => (hp.map Prod.fst).mem_iff
  have hfind : ∀ n, c1.find? (fun c => decide (c.1 = n)) = c2.find? (fun c => decide (c.1 = n)) := by
    intro n
    have huniq : ∀ a b : String × Option U, a ∈ c1 → b ∈ c1 → a.1 = b.1 → a = b :=
      fun a b ha hb hab => List.inj_on_of_nodup_map hnd ha hb hab
    cases h1 : c1.find? (fun c => decide (c.1 = n)) with
    | none =>
      symm
      rw [List.find?_eq_none] at h1 ⊢
      exact fun c hc => h1 c (hp.mem_iff.mpr hc)
    | some a =>
      cases h2 : c2.find? (fun c => decide (c.1 = n)) with
      | none =>
        rw [List.find?_eq_none] at h2
        exact absurd (List.find?_some h1) (h2 a (hp.mem_iff.mp (List.mem_of_find?_eq_some h1)))
      | some b =>
        have e1 := List.find?_some h1
        have e2 := List.find?_some h2
        simp only [decide_eq_true_eq] at e1 e2
        rw [huniq a b (List.mem_of_find?_eq_some h1) (hp.mem_iff.mpr (List.mem_of_find?_eq_some h2)) (e1.trans e2.symm)]
  have hunit : checkUnit equiv c1 = checkUnit equiv c2 := by
    funext r
    unfold checkUnit
    rw [hfind]
    by_cases h : r.1 ∈ c1.map Prod.fst
    · rw [if_neg (by simpa using h), if_neg (by simpa using (hmem _).mp h)]
    · rw [if_pos h, if_pos (fun h' => h ((hmem _).mpr h'))]
  have hfilter : ∀ l : List String, l.filter (fun c => decide (c ∉ c1.map Prod.fst))
      = l.filter (fun c => decide (c ∉ c2.map Prod.fst)) := by
    intro l
    apply List.filter_congr
    intro c _
    simp only [hmem]
  unfold checkTable
  rw [hunit]
  cases reqCols with
  | none => rfl
  | some l => simp only [hfilter]

/-- Three cases on a table with an energy column (unit TeV ~ "energy") and a dimensionless one. -/
example : let cols := [("energy", some "energy"), ("score", some "one")]
    let eq : String → String → Bool := fun a b => a == b
    checkTable eq cols (some ["energy"]) (some [("energy", "energy")]) = .ok () ∧
    checkTable eq cols (some ["energy"]) (some [("energy", "length"), ("x", "one")]) = .error .wrongColumnUnit ∧
    checkTable eq cols (some ["energy", "x"]) (some [("energy", "length")]) = .error .missingColumns := by
  refine ⟨rfl, rfl, rfl⟩

/-- **C76** (deviation) "A column that has no unit although a unit is required raises WrongColumnUnit" is false of the code:
asking astropy whether a unit is equivalent to `None` raises TypeError. -/
theorem C76_unitless_column_raises_typeError :
    checkTable (fun a b : String => a == b) [("energy", none)] none (some [("energy", "TeV")]) = .error .typeError := by
  rfl

/-- **C76** The undocumented TypeError is raised exactly if all required columns are there and the first entry of `required_units` that is not
fulfilled names a column of the table that has no unit. -/
theorem C76_typeError_iff {U E : Type*} (equiv : E → U → Bool) (columns : List (String × Option U))
    (reqCols : Option (List String)) (reqUnits : Option (List (String × E))) :
    checkTable equiv columns reqCols reqUnits = .error .typeError ↔
      (∀ l, reqCols = some l → ∀ c ∈ l, HasColumn columns c) ∧
      ∃ (l1 l2 : List (String × E)) (r : String × E), reqUnits = some (l1 ++ r :: l2) ∧
        (∀ q ∈ l1, HasColumn columns q.1 ∧ UnitFits equiv columns q) ∧ HasColumn columns r.1 ∧ unitOf columns r.1 = none := by
  have hall : (∀ l : List String, (l.filter (fun c => decide (c ∉ columns.map Prod.fst))).isEmpty = true ↔
      ∀ c ∈ l, HasColumn columns c) := by
    intro l
    rw [List.isEmpty_iff, List.filter_eq_nil_iff]
    simp only [hasColumn_iff, decide_eq_true_eq, not_not]
  have hrest : ∀ reqs : List (String × E), reqs.forM (checkUnit equiv columns) = .error .typeError ↔
      ∃ (l1 l2 : List (String × E)) (r : String × E), reqs = l1 ++ r :: l2 ∧
        (∀ q ∈ l1, HasColumn columns q.1 ∧ UnitFits equiv columns q) ∧ HasColumn columns r.1 ∧ unitOf columns r.1 = none := by
    intro reqs
    induction reqs with
    | nil => rw [forM_nil']; simp
    | cons q reqs ih =>
      rw [forM_cons']
      rcases checkUnit_cases equiv columns q with ⟨h, hc, hf⟩ | ⟨h, hc, -⟩ | ⟨h, hc, u, hu, hu2⟩ | ⟨h, hc, hn⟩
      · rw [h]
        change reqs.forM (checkUnit equiv columns) = .error .typeError ↔ _
        rw [ih]
        constructor
        · rintro ⟨l1, l2, r, rfl, h1, h2⟩
          exact ⟨q :: l1, l2, r, rfl, by
            intro q' hq'
            rcases List.mem_cons.mp hq' with rfl | hq'
            · exact ⟨hc, hf⟩
            · exact h1 q' hq', h2⟩
        · rintro ⟨l1, l2, r, he, h1, h2⟩
          cases l1 with
          | nil =>
            simp only [List.nil_append, List.cons.injEq] at he
            obtain ⟨rfl, rfl⟩ := he
            obtain ⟨u, hu, -⟩ := hf
            rw [h2.2] at hu; cases hu
          | cons q' l1 =>
            simp only [List.cons_append, List.cons.injEq] at he
            exact ⟨l1, l2, r, he.2, fun x hx => h1 x (by simp [hx]), h2⟩
      · rw [h]
        constructor
        · intro h'; cases h'
        · rintro ⟨l1, l2, r, he, h1, h2, -⟩
          cases l1 with
          | nil => simp only [List.nil_append, List.cons.injEq] at he; exact absurd (he.1 ▸ h2) hc
          | cons q' l1 => simp only [List.cons_append, List.cons.injEq] at he; exact absurd (he.1 ▸ (h1 q' (by simp)).1) hc
      · rw [h]
        constructor
        · intro h'; cases h'
        · rintro ⟨l1, l2, r, he, h1, h2, h3⟩
          cases l1 with
          | nil =>
            simp only [List.nil_append, List.cons.injEq] at he
            rw [← he.1, hu] at h3; cases h3
          | cons q' l1 =>
            simp only [List.cons_append, List.cons.injEq] at he
            obtain ⟨u', hu', hu2'⟩ := (h1 q' (by simp)).2
            rw [← he.1] at hu' hu2'
            rw [hu] at hu'; cases hu'
            rw [hu2] at hu2'; cases hu2'
      · rw [h]
        constructor
        · intro _; exact ⟨[], reqs, q, rfl, by simp, hc, hn⟩
        · intro _; rfl
  unfold checkTable
  cases reqCols with
  | none =>
    cases reqUnits with
    | none => simp
    | some reqs => simpa using hrest reqs
  | some l =>
    by_cases hl : (l.filter (fun c => decide (c ∉ columns.map Prod.fst))).isEmpty = true
    · simp only [hl]
      have h1 := (hall l).mp hl
      cases reqUnits with
      | none => simp
      | some reqs =>
        have := hrest reqs
        simp only [Option.some.injEq, forall_eq']
        constructor
        · intro h; exact ⟨h1, this.mp h⟩
        · rintro ⟨-, h⟩; exact this.mpr h
    · simp only [hl]
      constructor
      · intro h; cases h
      · rintro ⟨h, -⟩; exact absurd ((hall l).mpr (h l rfl)) hl

/-- **C76** Apart from this TypeError only the documented exceptions are raised. -/
theorem C76_errors {U E : Type*} (equiv : E → U → Bool) (columns : List (String × Option U))
    (reqCols : Option (List String)) (reqUnits : Option (List (String × E))) (e : Err)
    (he : checkTable equiv columns reqCols reqUnits = .error e) : e = .missingColumns ∨ e = .wrongColumnUnit ∨ e = .typeError := by
  have h : ∀ reqs : List (String × E), reqs.forM (checkUnit equiv columns) = .error e → e = .missingColumns ∨ e = .wrongColumnUnit ∨ e = .typeError := by
    intro reqs
    induction reqs with
    | nil => intro h; rw [forM_nil'] at h; cases h
    | cons q reqs ih =>
      intro h
      rw [forM_cons'] at h
      rcases checkUnit_cases equiv columns q with ⟨h', -⟩ | ⟨h', -⟩ | ⟨h', -⟩ | ⟨h', -⟩ <;> rw [h'] at h
      · exact ih h
      all_goals (injection h with h; simp [← h])
  unfold checkTable at he
  have hu : ∀ (o : Option (List (String × E))), (match o with
    | none => Except.ok ()
    | some reqs => reqs.forM (checkUnit equiv columns)) = .error e → e = .missingColumns ∨ e = .wrongColumnUnit ∨ e = .typeError := by
    intro o ho
    cases o with
    | none => cases ho
    | some reqs => exact h reqs ho
  cases reqCols with
  | none => exact hu _ he
  | some l =>
    simp only [] at he
    split at he
    · rename_i e' h'
      split at h' <;> cases h'
      cases he; simp
    · exact hu _ he

/-- **C76** For tables in which every column has a unit, only the documented exceptions MissingColumns and
WrongColumnUnit are raised. -/
theorem C76_documented_errors {U E : Type*} (equiv : E → U → Bool) (columns : List (String × Option U))
    (hu : ∀ c ∈ columns, c.2 ≠ none) (reqCols : Option (List String)) (reqUnits : Option (List (String × E))) (e : Err)
    (he : checkTable equiv columns reqCols reqUnits = .error e) : e = .missingColumns ∨ e = .wrongColumnUnit := by
  have hone : ∀ r e, checkUnit equiv columns r = .error e → e = .missingColumns ∨ e = .wrongColumnUnit := by
    intro r e he
    rcases checkUnit_cases equiv columns r with ⟨h, -⟩ | ⟨h, -⟩ | ⟨h, -⟩ | ⟨h, ⟨c, hc, hcr⟩, h'⟩
    · rw [h] at he; exact absurd he (by simp)
    · rw [h] at he; exact Or.inl (Except.error.inj he).symm
    · rw [h] at he; exact Or.inr (Except.error.inj he).symm
    · exfalso
      unfold unitOf at h'
      cases hfi : columns.find? (fun c => decide (c.1 = r.1)) with
      | none =>
        rw [List.find?_eq_none] at hfi
        exact hfi c hc (by simpa using hcr)
      | some d =>
        rw [hfi] at h'
        exact hu d (List.mem_of_find?_eq_some hfi) h'
  have hall : ∀ l : List (String × E), ∀ e, l.forM (checkUnit equiv columns) = .error e →
      e = .missingColumns ∨ e = .wrongColumnUnit := by
    intro l
    induction l with
    | nil => intro e he; exact absurd he (by simp [forM_nil', pure, Except.pure])
    | cons r l ih =>
      intro e he
      rw [forM_cons'] at he
      cases hr : checkUnit equiv columns r with
      | error e' =>
        rw [hr] at he
        have : e' = e := Except.error.inj he
        exact this ▸ hone r e' hr
      | ok _ => rw [hr] at he; exact ih e he
  unfold checkTable at he
  cases reqCols with
  | none =>
    cases reqUnits with
    | none => exact absurd he (by simp)
    | some us => exact hall us e he
  | some l =>
    by_cases hl : (l.filter (fun c => decide (c ∉ columns.map Prod.fst))).isEmpty = true
    · simp only [hl, if_true] at he
      cases reqUnits with
      | none => exact absurd he (by simp)
      | some us => exact hall us e he
    · simp only [hl] at he
      exact Or.inl (Except.error.inj he).symm

/-! ## C72: check_histograms -/

section hist
variable {K : Type*} [LinearOrder K]

theorem allEqual_same_length {a b : List (FV K)} (h : a.length = b.length) :
    allEqual a b = true ↔ a = b ∧ ∀ x ∈ a, x ≠ .nan := by
  unfold allEqual
  rw [if_pos h]
  induction a generalizing b with
  | nil => cases b <;> simp_all
  | cons x a ih =>
    cases b with
    | nil => simp at h
    | cons y b =>
      have h' : a.length = b.length := by simpa using h
      rw [List.zipWith_cons_cons, List.all_cons, Bool.and_eq_true, ih h', id, FV.beq_iff]
      constructor
      · rintro ⟨⟨rfl, hx⟩, rfl, hn⟩
        refine ⟨rfl, ?_⟩
        intro z hz
        rcases List.mem_cons.mp hz with rfl | hz
        · exact hx
        · exact hn z hz
      · rintro ⟨heq, hn⟩
        obtain ⟨rfl, rfl⟩ := List.cons.inj heq
        exact ⟨⟨rfl, hn _ (by simp)⟩, rfl, fun z hz => hn z (by simp [hz])⟩

/-- **C72** For two histogram tables with the same number of bins, `check_histograms` passes exactly if lower edges, centers
and upper edges agree in every bin and none is NaN, and raises ValueError otherwise. -/
theorem C72_check_histograms (h1 h2 : Table (FV K)) (key : String) (low1 center1 high1 low2 center2 high2 : List (FV K))
    (a1 : h1.get (key ++ "_low") = .ok low1) (a2 : h1.get (key ++ "_center") = .ok center1)
    (a3 : h1.get (key ++ "_high") = .ok high1) (b1 : h2.get (key ++ "_low") = .ok low2)
    (b2 : h2.get (key ++ "_center") = .ok center2) (b3 : h2.get (key ++ "_high") = .ok high2)
    (l1 : low1.length = low2.length) (l2 : center1.length = center2.length) (l3 : high1.length = high2.length) :
    ((low1 = low2 ∧ center1 = center2 ∧ high1 = high2 ∧ ∀ x ∈ low1 ++ center1 ++ high1, x ≠ .nan) →
      checkHistograms h1 h2 key = .ok ()) ∧
    (¬ (low1 = low2 ∧ center1 = center2 ∧ high1 = high2 ∧ ∀ x ∈ low1 ++ center1 ++ high1, x ≠ .nan) →
      checkHistograms h1 h2 key = .error .valueError) := by
  unfold checkHistograms checkColumn
  rw [a1, a2, a3, b1, b2, b3]
  have q1 := allEqual_same_length l1
  have q2 := allEqual_same_length l2
  have q3 := allEqual_same_length l3
  have hiff : (low1 = low2 ∧ center1 = center2 ∧ high1 = high2 ∧ ∀ x ∈ low1 ++ center1 ++ high1, x ≠ .nan) ↔
      allEqual low1 low2 = true ∧ allEqual center1 center2 = true ∧ allEqual high1 high2 = true := by
    rw [q1, q2, q3]
    simp only [List.mem_append]
    constructor
    · rintro ⟨e1, e2, e3, h⟩
      exact ⟨⟨e1, fun x hx => h x (Or.inl (Or.inl hx))⟩, ⟨e2, fun x hx => h x (Or.inl (Or.inr hx))⟩,
        ⟨e3, fun x hx => h x (Or.inr hx)⟩⟩
    · rintro ⟨⟨e1, n1⟩, ⟨e2, n2⟩, ⟨e3, n3⟩⟩
      exact ⟨e1, e2, e3, fun x hx => by rcases hx with (hx | hx) | hx; exacts [n1 x hx, n2 x hx, n3 x hx]⟩
  rw [hiff]
  cases e1 : allEqual low1 low2 <;> cases e2 : allEqual center1 center2 <;> cases e3 : allEqual high1 high2 <;>
    simp [bind, Except.bind, e1, e2, e3]

/-- **C72** Tables with different numbers of bins are rejected, provided the lower edges of each are distinct (as they are for a
strictly increasing binning; numpy would broadcast a single bin against many equal ones). -/
theorem C72_different_length (h1 h2 : Table (FV K)) (key : String) (low1 low2 : List (FV K))
    (a1 : h1.get (key ++ "_low") = .ok low1) (b1 : h2.get (key ++ "_low") = .ok low2)
    (n1 : low1.Nodup) (n2 : low2.Nodup) (p1 : low1 ≠ []) (p2 : low2 ≠ []) (hl : low1.length ≠ low2.length) :
    checkHistograms h1 h2 key = .error .valueError := by
  have key' : ∀ (x : FV K) (l : List (FV K)), l.Nodup → l ≠ [] → l.length ≠ 1 →
      ¬ (∀ y ∈ l, x = y) := by
    intro x l hn hne hl1 hall
    match l, hn, hne, hl1, hall with
    | [], _, hne, _, _ => exact hne rfl
    | [_], _, _, hl1, _ => exact hl1 rfl
    | a :: b :: l, hn, _, _, hall =>
      have e1 := hall a (by simp)
      have e2 := hall b (by simp)
      have : a = b := e1.symm.trans e2
      simp [this] at hn
  have hf : allEqual low1 low2 = false := by
    by_contra hc
    rw [Bool.not_eq_false] at hc
    unfold allEqual at hc
    rw [if_neg hl] at hc
    split at hc
    · rename_i x
      refine key' x low2 n2 p2 (fun h => hl (by simp [h])) (fun y hy => ?_)
      exact ((FV.beq_iff _ _).mp (List.all_eq_true.mp hc y hy)).1
    · rename_i y _
      refine key' y low1 n1 p1 (fun h => hl (by simp [h])) (fun x hx => ?_)
      exact ((FV.beq_iff _ _).mp (List.all_eq_true.mp hc x hx)).1.symm
    · exact absurd hc (by simp)
  unfold checkHistograms checkColumn
  rw [a1, b1]
  simp [hf, bind, Except.bind]
end hist

/-- The hypotheses are met and both outcomes occur. -/
example : let t : Table (FV ℚ) := ⟨[("e_low", [.fin 1]), ("e_center", [.fin 2]), ("e_high", [.fin 3])]⟩
    let t' : Table (FV ℚ) := ⟨[("e_low", [.fin 1]), ("e_center", [.fin 2]), ("e_high", [.fin 4])]⟩
    (checkHistograms t t "e" = .ok ()) ∧ checkHistograms t t' "e" = .error .valueError := by
  refine ⟨rfl, rfl⟩

/-! ## C69: solid angles -/

/-- **C69** The cone solid angle is the surface integral over the cap; it is 0 at 0 and 4π at 180 degrees. -/
theorem C69_cone_is_surface_integral (angle : ℝ) :
    coneSolidAngle angle = ∫ _φ in (0 : ℝ)..(2 * Real.pi), ∫ θ in (0 : ℝ)..angle, Real.sin θ := by
  simp only [integral_sin, intervalIntegral.integral_const, smul_eq_mul, Real.cos_zero, coneSolidAngle, sub_zero]

/-- **C69** Values at 0 and 180 degrees; strictly increasing in between. -/
theorem C69_cone_values : coneSolidAngle 0 = 0 ∧ coneSolidAngle Real.pi = 4 * Real.pi ∧
    StrictMonoOn coneSolidAngle (Set.Icc 0 Real.pi) := by
  refine ⟨by simp [coneSolidAngle], by simp [coneSolidAngle]; ring, ?_⟩
  intro a ha b hb hab
  have := Real.strictAntiOn_cos ha hb hab
  unfold coneSolidAngle
  have hpi := Real.pi_pos
  nlinarith

/-- **C69** The rectangle solid angle is the surface integral of cos(latitude). -/
theorem C69_rectangle_is_surface_integral (lonLow lonHigh latLow latHigh : ℝ) :
    rectangleSolidAngle lonLow lonHigh latLow latHigh =
      ∫ _l in lonLow..lonHigh, ∫ b in latLow..latHigh, Real.cos b := by
  simp only [integral_cos, intervalIntegral.integral_const, smul_eq_mul, rectangleSolidAngle]

/-- **C69** Rectangles add up along longitude and latitude; the full sphere has 4π; a proper rectangle is positive; a cone
is the rectangle of all longitudes from latitude 90° - angle to 90°. -/
theorem C69_rectangle_values :
    (∀ a b c l h : ℝ, rectangleSolidAngle a b l h + rectangleSolidAngle b c l h = rectangleSolidAngle a c l h) ∧
    (∀ a b l m h : ℝ, rectangleSolidAngle a b l m + rectangleSolidAngle a b m h = rectangleSolidAngle a b l h) ∧
    rectangleSolidAngle (-Real.pi) Real.pi (-(Real.pi / 2)) (Real.pi / 2) = 4 * Real.pi ∧
    (∀ a b l h : ℝ, a < b → -(Real.pi / 2) ≤ l → l < h → h ≤ Real.pi / 2 → 0 < rectangleSolidAngle a b l h) ∧
    (∀ x : ℝ, coneSolidAngle x = rectangleSolidAngle 0 (2 * Real.pi) (Real.pi / 2 - x) (Real.pi / 2)) := by
  refine ⟨?_, ?_, ?_, ?_, ?_⟩
  · intros; unfold rectangleSolidAngle; ring
  · intros; unfold rectangleSolidAngle; ring
  · unfold rectangleSolidAngle; simp; ring
  · intro a b l h hab h1 h2 h3
    have := Real.strictMonoOn_sin ⟨h1, by linarith⟩ ⟨by linarith, h3⟩ h2
    unfold rectangleSolidAngle
    have h4 := sub_pos.mpr hab
    have h5 := sub_pos.mpr this
    exact mul_pos h4 h5
  · intro x
    unfold coneSolidAngle rectangleSolidAngle
    rw [Real.sin_pi_div_two, Real.sin_pi_div_two_sub]; ring

end Pyirf.Utils
