import Verif.Np.FV

/-!
# astropy contract: tables

A table is its ordered list of named columns.
-/
set_option linter.unusedSectionVars false

namespace Pyirf

/-- An astropy (Q)Table: ordered, named columns. -/
structure Table (V : Type*) where
  /-- the columns in order -/
  cols : List (String × List V)

namespace Table
variable {V : Type*}

/-- `table.colnames` -/
def names (t : Table V) : List String := t.cols.map Prod.fst

/-- `table[name]` (KeyError if absent) -/
def get (t : Table V) (name : String) : Except Err (List V) :=
  match t.cols.find? (fun c => c.1 = name) with
  | some c => .ok c.2
  | none => .error .keyError

/-- `table[name] = col`: replaces an existing column in place, else appends. -/
def set (t : Table V) (name : String) (col : List V) : Table V :=
  if name ∈ t.names then ⟨t.cols.map fun c => if c.1 = name then (name, col) else c⟩
  else ⟨t.cols ++ [(name, col)]⟩

/-- `table[i] = other[i]`: the values of row `i` of the other table are assigned *by position*; ValueError if the numbers of
columns differ (astropy `Table._set_row`). Both tables have the same number of rows. -/
def setRow (t : Table V) (i : ℕ) (other : Table V) : Except Err (Table V) :=
  if t.cols.length ≠ other.cols.length then .error .valueError
  else .ok ⟨List.zipWith (fun c o => (c.1, match o.2[i]? with | some v => c.2.set i v | none => c.2)) t.cols other.cols⟩

/-! ## Lemmas -/

theorem get_set_self (t : Table V) (name : String) (col : List V) : (t.set name col).get name = .ok col := by
  unfold set
  split
  · rename_i h
    unfold get
    have : (t.cols.map fun c => if c.1 = name then (name, col) else c).find? (fun c => decide (c.1 = name))
        = some (name, col) := by
      unfold names at h
      revert h
      generalize t.cols = l
      induction l with
      | nil => intro h; simp at h
      | cons c l ih =>
        intro h
        rw [List.map_cons, List.find?_cons]
        by_cases hc : c.1 = name
        · simp [hc]
        · simp only [hc, if_false, decide_false]
          apply ih
          simp only [List.map_cons, List.mem_cons] at h
          rcases h with h | h
          · exact absurd h.symm hc
          · exact h
    rw [this]
  · rename_i h
    unfold get
    have : (t.cols ++ [(name, col)]).find? (fun c => decide (c.1 = name)) = some (name, col) := by
      rw [List.find?_append]
      have : t.cols.find? (fun c => decide (c.1 = name)) = none := by
        rw [List.find?_eq_none]
        intro c hc he
        exact h (List.mem_map.mpr ⟨c, hc, by simpa using he⟩)
      rw [this]; simp
    rw [this]

theorem get_set_ne (t : Table V) (name name' : String) (col : List V) (h : name' ≠ name) :
    (t.set name col).get name' = t.get name' := by
  unfold set
  split
  · unfold get
    simp only []
    generalize t.cols = l
    have : (l.map fun c => if c.1 = name then (name, col) else c).find? (fun c => decide (c.1 = name'))
        = l.find? (fun c => decide (c.1 = name')) := by
      induction l with
      | nil => rfl
      | cons c l ih =>
        rw [List.map_cons, List.find?_cons, List.find?_cons]
        by_cases hc : c.1 = name
        · have hc' : ¬ c.1 = name' := fun h2 => h (h2.symm.trans hc)
          simp only [hc, if_true, h.symm, decide_false]
          simpa [hc'] using ih
        · simp only [hc, if_false]
          rw [ih]
    rw [this]
  · unfold get
    simp only []
    rw [List.find?_append]
    have : ([(name, col)] : List (String × List V)).find? (fun c => decide (c.1 = name')) = none := by
      simp [h.symm]
    rw [this]; simp

theorem names_set (t : Table V) (name : String) (col : List V) :
    (t.set name col).names = if name ∈ t.names then t.names else t.names ++ [name] := by
  unfold set
  split
  · unfold names
    rw [List.map_map]
    apply List.map_congr_left
    intro c _
    simp only [Function.comp]
    split
    · rename_i hc; exact hc.symm
    · rfl
  · simp [names]

end Table
end Pyirf
