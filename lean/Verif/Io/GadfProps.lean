import Verif.Io.GadfModel
import Verif.Binning.Props
import Mathlib.Tactic.FieldSimp
import Mathlib.Tactic.Ring

/-!
# Properties of the GADF writers: C67, C105, C106, C107
-/
set_option linter.unusedSectionVars false
set_option linter.unusedSimpArgs false

namespace Pyirf.Io
open Pyirf Pyirf.Np Pyirf.Binning

/-! ## Specification -/

/-- FITS order: the first axis runs fastest. Position of the element with (0-based) index `idx` in an array with
dimensions `dims` (FITS standard 4.0, section 3.3.2 and 7.3.2). -/
def fitsOffset : List ℕ → List ℕ → ℕ
  | d :: ds, i :: is => i + d * fitsOffset ds is
  | _, _ => 0

section spec
variable {K : Type*} [Field K] [LinearOrder K]

/-- What a FITS reader finds at index `idx` of a column. -/
def Column.read (c : Column K) (idx : List ℕ) : Option (FV K) := c.data[fitsOffset c.dims idx]?

/-- The column of a given name. -/
def Hdu.column? (h : Hdu K) (name : String) : Option (Column K) := h.columns.find? fun c => c.name == name

/-- A number with its unit in SI units. -/
def si (u : Option (PhysUnit K)) (x : FV K) : FV K := FV.fin ((u.map PhysUnit.scale).getD 1) * x

/-- The columns `axis_LO`, `axis_HI` are in unit `unit` and hold the lower and upper edges of the bins given by the
edges `x`, the same physical quantities. -/
def StoresAxis (h : Hdu K) (axis : String) (unit : Option (PhysUnit K)) (x : Arg K (List (FV K))) : Prop :=
  ∃ lo hi, h.column? (axis ++ "_LO") = some lo ∧ h.column? (axis ++ "_HI") = some hi ∧
    lo.unit = unit ∧ hi.unit = unit ∧ lo.dims = [x.data.length - 1] ∧ hi.dims = [x.data.length - 1] ∧
    lo.data.length = x.data.length - 1 ∧ hi.data.length = x.data.length - 1 ∧
    ∀ i e e', x.data[i]? = some e → x.data[i + 1]? = some e' →
      (∃ v, lo.read [i] = some v ∧ si unit v = si x.unit e) ∧ ∃ v, hi.read [i] = some v ∧ si unit v = si x.unit e'

/-- The column `name` is in unit `unit`, has the dimensions of the numpy array `x` in the same order, and holds at every
index the same physical quantity as `x`. -/
def StoresData (h : Hdu K) (name : String) (unit : PhysUnit K) (x : Arg K (ND (FV K))) : Prop :=
  ∃ col, h.column? name = some col ∧ col.unit = some unit ∧ col.dims = x.data.shape ∧
    col.data.length = x.data.shape.prod ∧
    ∀ idx, ND.Valid x.data.shape idx → ∃ v, col.read idx = some v ∧ si (some unit) v = si x.unit (x.data.get idx)

/-- The value of the last user card for this keyword. -/
def lastCard (cards : List (String × HVal)) (key : String) : Option HVal :=
  (cards.reverse.find? fun c => upper c.1 == key).map Prod.snd

/-- The header: EXTNAME is the given extension name; every other keyword has the value of the last user card that names it,
otherwise the value from the list `fixed`. (Keywords of comments can occur many times, see `C67_commentary`.) -/
def HeaderIs (ctx : Ctx) (header fixed : Header) : Prop :=
  ∀ key ∉ ["COMMENT", "HISTORY", ""], header.get? key =
    if key = "EXTNAME" ∧ ctx.extname ≠ "" then some (.str (upper ctx.extname))
    else (lastCard ctx.cards key).or (fixed.get? key)

/-- GADF's CREF value for a list of axes. -/
def crefString (axes : List String) : String :=
  "(" ++ ",".intercalate (axes.map fun a => a ++ "_LO:" ++ a ++ "_HI") ++ ")"

/-- The cards common to all GADF HDUs and the class cards of this one; `pos` is the position of the data column, `axes` its axes. -/
def gadfCards (ctx : Ctx) (clas2 clas3 clas4 : String) (extra : Header) (pos : ℕ) (axes : List String) : Header :=
  [("CREATOR", .str ("pyirf v" ++ ctx.version)),
   ("HDUDOC", .str "https://github.com/open-gamma-ray-astro/gamma-astro-data-formats"),
   ("HDUVERS", .str "0.2"), ("HDUCLASS", .str "GADF"), ("HDUCLAS1", .str "RESPONSE"), ("HDUCLAS2", .str clas2),
   ("HDUCLAS3", .str clas3), ("HDUCLAS4", .str clas4)] ++ extra ++
  [("DATE", .str ctx.now), ("CREF" ++ toString pos, .str (crefString axes))]

/-- The data column is number `pos` (from 1), and if the array's shape is the number of bins of the axes in the documented
order, then along every axis named by CREF the data column is as long as the axis columns. -/
def CrefConsistent (h : Hdu K) (name : String) (pos : ℕ) (axes : List String) (shape : List ℕ)
    (bins : List (Arg K (List (FV K)))) : Prop :=
  (∃ col, h.columns[pos - 1]? = some col ∧ 1 ≤ pos ∧ col.name = name ∧ h.column? name = some col) ∧
  (shape = bins.map (fun b => b.data.length - 1) →
    ∀ col, h.column? name = some col → col.dims.length = axes.length ∧
      ∀ (k : ℕ) (a : String) (d : ℕ), axes[k]? = some a → col.dims[k]? = some d →
        ∃ lo hi, h.column? (a ++ "_LO") = some lo ∧ h.column? (a ++ "_HI") = some hi ∧ lo.dims = [d] ∧ hi.dims = [d])

/-- The error of a list of unit-checked arguments: the first one without unit or with a unit of another dimension decides. -/
def unitVerdict : List (Option (PhysUnit K) × PhysUnit K) → Option Err
  | [] => none
  | (none, _) :: _ => some .typeError
  | (some u, t) :: r => if u.dim = t.dim then unitVerdict r else some .unitsError

/-- The argument has a unit of the dimension of `t`. -/
def HasDim {σ : Type*} (x : Arg K σ) (t : PhysUnit K) : Prop := ∃ un, x.unit = some un ∧ un.dim = t.dim

end spec

/-! ## C order of the transpose is FITS order of the original -/

/-- position of an index in C order -/
def cOffset : List ℕ → List ℕ → ℕ
  | _ :: s, i :: is => i * s.prod + cOffset s is
  | _, _ => 0

theorem length_ravel {α : Type*} (s : List ℕ) (get : List ℕ → α) : (ravel s get).length = s.prod := by
  induction s generalizing get with
  | nil => rfl
  | cons n s ih =>
    simp only [ravel, List.length_flatMap, ih, List.prod_cons]
    simp

theorem getElem?_flatMap_range {α : Type*} (f : ℕ → List α) (m : ℕ) (hf : ∀ i, (f i).length = m) (n i j : ℕ)
    (hi : i < n) (hj : j < m) : ((List.range n).flatMap f)[i * m + j]? = (f i)[j]? := by
  induction n with
  | zero => omega
  | succ n ih =>
    rw [List.range_succ, List.flatMap_append]
    have hlen : ((List.range n).flatMap f).length = n * m := by simp [List.length_flatMap, hf]
    by_cases h : i < n
    · rw [List.getElem?_append_left, ih h]
      rw [hlen]
      calc i * m + j < i * m + m := by omega
        _ = (i + 1) * m := by ring
        _ ≤ n * m := Nat.mul_le_mul_right _ h
    · have : i = n := by omega
      subst this
      rw [List.getElem?_append_right (by rw [hlen]; omega), hlen]
      simp

theorem cOffset_lt {s idx : List ℕ} (h : ND.Valid s idx) : cOffset s idx < s.prod := by
  induction h with
  | nil => simp [cOffset]
  | @cons i n is s hin _ ih =>
    simp only [cOffset, List.prod_cons]
    calc i * s.prod + cOffset s is < i * s.prod + s.prod := by omega
      _ = (i + 1) * s.prod := by ring
      _ ≤ n * s.prod := Nat.mul_le_mul_right _ hin

theorem getElem?_ravel {α : Type*} (s idx : List ℕ) (get : List ℕ → α) (h : ND.Valid s idx) :
    (ravel s get)[cOffset s idx]? = some (get idx) := by
  induction h generalizing get with
  | nil => simp [cOffset, ravel]
  | @cons i n is s hin hv ih =>
    rw [cOffset, ravel, getElem?_flatMap_range _ s.prod (fun i => length_ravel _ _) n i _ hin (cOffset_lt hv)]
    exact ih _

theorem cOffset_append (s is : List ℕ) (d i : ℕ) (h : s.length = is.length) :
    cOffset (s ++ [d]) (is ++ [i]) = cOffset s is * d + i := by
  induction s generalizing is with
  | nil => cases is with
    | nil => simp [cOffset]
    | cons _ _ => simp at h
  | cons n s ih => cases is with
    | nil => simp at h
    | cons j is =>
      simp only [List.cons_append, cOffset, List.prod_append, List.prod_cons, List.prod_nil, mul_one]
      rw [ih is (by simpa using h)]
      ring

theorem fitsOffset_eq (ds is : List ℕ) (h : ds.length = is.length) :
    fitsOffset ds is = cOffset ds.reverse is.reverse := by
  induction ds generalizing is with
  | nil => cases is <;> simp [fitsOffset, cOffset]
  | cons d ds ih => cases is with
    | nil => simp at h
    | cons i is =>
      simp only [List.length_cons, Nat.add_right_cancel_iff] at h
      rw [fitsOffset, List.reverse_cons, List.reverse_cons, cOffset_append _ _ _ _ (by simpa using h), ih is h]
      ring

theorem valid_reverse {s idx : List ℕ} (h : ND.Valid s idx) : ND.Valid s.reverse idx.reverse := List.rel_reverse h

/-- The number a FITS reader finds at `idx` in the column written from `a.T[np.newaxis, ...]` is `a[idx]`. -/
theorem read_transposeRow {α : Type*} (a : ND α) (idx : List ℕ) (h : ND.Valid a.shape idx) :
    (ravel (transposeRow a).shape (transposeRow a).get)[fitsOffset (transposeRow a).shape.tail.reverse idx]? =
      some (a.get idx) := by
  have hl : a.shape.length = idx.length := (List.Forall₂.length_eq h).symm
  simp only [transposeRow, List.tail_cons, List.reverse_reverse]
  rw [fitsOffset_eq _ _ hl]
  have hv : ND.Valid (1 :: a.shape.reverse) (0 :: idx.reverse) := List.Forall₂.cons Nat.one_pos (valid_reverse h)
  have := getElem?_ravel _ _ (fun idx => a.get idx.tail.reverse) hv
  simpa [cOffset] using this

/-! ## Header -/

theorem get?_putUpper (h : Header) (k : String) (v : HVal) (key : String) (hk : key ∉ commentary) :
    (putUpper h k v).get? key = if k = key then some v else h.get? key := by
  unfold putUpper
  by_cases hc : k ∈ commentary
  · rw [if_pos hc, if_neg (fun e : k = key => hk (e ▸ hc))]
    have hne : (k == key) = false := by rw [beq_eq_false_iff_ne]; exact fun e => hk (e ▸ hc)
    simp [Header.get?, List.find?_append, hne]
  · rw [if_neg hc]
    by_cases ha : h.any (fun c => c.1 == k) = true
    · rw [if_pos ha]
      induction h with
      | nil => simp at ha
      | cons c h ih =>
        unfold Header.get? at *
        simp only [List.map_cons, List.find?_cons]
        by_cases hck : (c.1 == k) = true
        · rw [if_pos hck]
          by_cases hkk : k = key
          · simp [hkk]
          · have hne : (k == key) = false := by rw [beq_eq_false_iff_ne]; exact hkk
            have hne' : (c.1 == key) = false := by rw [beq_iff_eq.mp hck]; exact hne
            rw [hne, hne', if_neg hkk]
            simp only
            by_cases ha' : h.any (fun c => c.1 == k) = true
            · rw [ih ha', if_neg hkk]
            · have hmap : (h.map fun c => if (c.1 == k) = true then (k, v) else c) = h := by
                conv_rhs => rw [← List.map_id h]
                apply List.map_congr_left
                intro x hx
                rw [if_neg, id]
                intro hxk
                exact ha' (List.any_eq_true.mpr ⟨x, hx, hxk⟩)
              rw [hmap]
        · rw [if_neg hck]
          have ha' : h.any (fun c => c.1 == k) = true := by simpa [hck] using ha
          by_cases hckey : (c.1 == key) = true
          · have hkk : k ≠ key := fun e => hck (by rw [e]; exact hckey)
            rw [hckey, if_neg hkk]
          · rw [Bool.eq_false_iff.mpr hckey]
            exact ih ha'
    · rw [if_neg ha]
      unfold Header.get?
      rw [List.find?_append]
      by_cases hkk : k = key
      · subst hkk
        have : h.find? (fun c => c.1 == k) = none := by
          rw [List.find?_eq_none]
          intro x hx hxk
          exact ha (List.any_eq_true.mpr ⟨x, hx, hxk⟩)
        simp [this]
      · have hne : (k == key) = false := by rw [beq_eq_false_iff_ne]; exact hkk
        simp [hkk, hne]

theorem get?_addHeaderCards (cards : List (String × HVal)) (h : Header) (key : String) (hk : key ∉ commentary) :
    (addHeaderCards h cards).get? key = (lastCard cards key).or (h.get? key) := by
  induction cards generalizing h with
  | nil => simp [addHeaderCards, lastCard]
  | cons c cards ih =>
    have : addHeaderCards h (c :: cards) = addHeaderCards (put h c.1 c.2) cards := rfl
    rw [this, ih, put, get?_putUpper _ _ _ _ hk]
    unfold lastCard
    rw [List.reverse_cons, List.find?_append]
    cases hf : cards.reverse.find? fun c => upper c.1 == key with
    | some x => simp
    | none =>
      by_cases hkk : upper c.1 = key
      · simp [hkk]
      · have hne : (upper c.1 == key) = false := by rw [beq_eq_false_iff_ne]; exact hkk
        simp [hkk, hne]

section cols
variable {K : Type} [Field K] [LinearOrder K] [IsStrictOrderedRing K]

theorem headerIs_binTable (ctx : Ctx) (table : List (TCol K)) (fixed : Header) :
    HeaderIs ctx (binTableHDU ctx table (addHeaderCards fixed ctx.cards)).header fixed := by
  intro key hk
  unfold binTableHDU
  by_cases he : ctx.extname = ""
  · simp only [he, if_pos, ne_eq, not_true_eq_false, and_false, if_false]
    exact get?_addHeaderCards _ _ _ hk
  · simp only [he, if_false, ne_eq, not_false_eq_true, and_true]
    rw [get?_putUpper _ _ _ _ hk, get?_addHeaderCards _ _ _ hk]
    by_cases h : key = "EXTNAME"
    · simp [h]
    · rw [if_neg h, if_neg (fun e => h e.symm)]

theorem fin_mul_infSign {a : K} (ha : 0 < a) (b : K) : FV.fin a * FV.infSign b = FV.infSign (a * b) := by
  unfold FV.infSign
  rcases lt_trichotomy b 0 with hb | hb | hb
  · have h2 : a * b < 0 := mul_neg_of_pos_of_neg ha hb
    rw [if_neg hb.ne, if_neg hb.not_gt, if_neg h2.ne, if_neg h2.not_gt]
    show FV.infSign (-a) = FV.ninf
    have : -a < 0 := by linarith
    rw [FV.infSign, if_neg this.ne, if_neg this.not_gt]
  · simp [hb]
  · have h2 : 0 < a * b := mul_pos ha hb
    rw [if_neg hb.ne', if_pos hb, if_neg h2.ne', if_pos h2]
    show FV.infSign a = FV.pinf
    rw [FV.infSign, if_neg ha.ne', if_pos ha]

theorem fin_mul_fin_mul {a : K} (ha : 0 < a) (b : K) (v : FV K) : FV.fin a * (FV.fin b * v) = FV.fin (a * b) * v := by
  cases v with
  | nan => simp
  | fin x => simp [mul_assoc]
  | pinf => exact fin_mul_infSign ha b
  | ninf =>
    refine (fin_mul_infSign ha (-b)).trans ?_
    show _ = FV.infSign (-(a * b))
    rw [mul_neg]

theorem si_convert (un t : PhysUnit K) (ht : 0 < t.scale) (v : FV K) :
    si (some t) (FV.fin (un.scale / t.scale) * v) = si (some un) v := by
  show FV.fin t.scale * _ = FV.fin un.scale * v
  rw [fin_mul_fin_mul ht, mul_div_cancel₀ _ ht.ne']

theorem read_row (name : String) (u : Option (PhysUnit K)) (l : List (FV K)) (i : ℕ) (v : FV K) (h : l[i]? = some v) :
    (writeColumn ⟨name, u, ⟨[1, l.length], fun idx => l.getD (idx.getD 1 0) .nan⟩⟩).read [i] = some v := by
  obtain ⟨hi, hv⟩ := List.getElem?_eq_some_iff.mp h
  have hval : ND.Valid [1, l.length] [0, i] := List.Forall₂.cons Nat.one_pos (List.Forall₂.cons hi List.Forall₂.nil)
  have := getElem?_ravel _ _ (fun idx => l.getD (idx.getD 1 0) FV.nan) hval
  have e : fitsOffset [l.length] [i] = cOffset [1, l.length] [0, i] := by simp [fitsOffset, cOffset]
  show (ravel _ _)[fitsOffset [l.length] [i]]? = some v
  rw [e]
  refine this.trans ?_
  simp [List.getD, h]

theorem storesAxis_of (h : Hdu K) (axis lo hi : String) (u : Option (PhysUnit K)) (x : Arg K (List (FV K))) (es : List (FV K))
    (hlo : h.column? (axis ++ "_LO") = ((loHi lo hi u es).map writeColumn)[0]?)
    (hhi : h.column? (axis ++ "_HI") = ((loHi lo hi u es).map writeColumn)[1]?)
    (hlen : es.length = x.data.length)
    (hes : ∀ (i : ℕ) (e : FV K), x.data[i]? = some e → ∃ v, es[i]? = some v ∧ si u v = si x.unit e) :
    StoresAxis h axis u x := by
  refine ⟨_, _, hlo, hhi, rfl, rfl, ?_, ?_, ?_, ?_, ?_⟩
  · show [es.dropLast.length] = _
    rw [List.length_dropLast, hlen]
  · show [es.tail.length] = _
    rw [List.length_tail, hlen]
  · show (ravel _ _).length = _
    rw [length_ravel]
    simp [splitBinLoHi, hlen]
  · show (ravel _ _).length = _
    rw [length_ravel]
    simp [splitBinLoHi, hlen]
  · intro i e e' he he'
    obtain ⟨v, hv, hve⟩ := hes i e he
    obtain ⟨v', hv', hve'⟩ := hes (i + 1) e' he'
    refine ⟨⟨v, read_row lo u es.dropLast i v ?_, hve⟩, ⟨v', read_row hi u es.tail i v' ?_, hve'⟩⟩
    · obtain ⟨hi', _⟩ := List.getElem?_eq_some_iff.mp hv'
      rw [List.getElem?_dropLast, if_pos (by omega), hv]
    · rw [List.getElem?_tail, hv']

theorem edges_convert (un t : PhysUnit K) (ht : 0 < t.scale) (x : Arg K (List (FV K))) (hx : x.unit = some un) (i : ℕ) (e : FV K)
    (he : x.data[i]? = some e) :
    ∃ v, (x.data.map fun v => FV.fin (un.scale / t.scale) * v)[i]? = some v ∧ si (some t) v = si x.unit e := by
  refine ⟨FV.fin (un.scale / t.scale) * e, by rw [List.getElem?_map, he]; rfl, ?_⟩
  rw [si_convert _ _ ht, hx]

theorem storesData_of (h : Hdu K) (name : String) (un t : PhysUnit K) (ht : 0 < t.scale) (x : Arg K (ND (FV K)))
    (hx : ∀ v, si x.unit v = si (some un) v)
    (hcol : h.column? name = some (writeColumn ⟨name, some t,
      ⟨(transposeRow x.data).shape, fun idx => FV.fin (un.scale / t.scale) * (transposeRow x.data).get idx⟩⟩)) :
    StoresData h name t x := by
  refine ⟨_, hcol, rfl, ?_, ?_, ?_⟩
  · simp [writeColumn, transposeRow]
  · simp [writeColumn, transposeRow, length_ravel]
  · intro idx hidx
    refine ⟨FV.fin (un.scale / t.scale) * x.data.get idx,
      read_transposeRow ⟨x.data.shape, fun idx => FV.fin (un.scale / t.scale) * x.data.get idx⟩ idx hidx, ?_⟩
    rw [si_convert _ _ ht, hx]

theorem quantityInput_cases {σ : Type*} (x : Arg K σ) (t : PhysUnit K) :
    (∃ un, x.unit = some un ∧ un.dim = t.dim ∧ quantityInput x t = .ok ()) ∨
    (∃ e, quantityInput x t = .error e ∧ ∀ r, unitVerdict ((x.unit, t) :: r) = some e) := by
  unfold quantityInput
  cases hx : x.unit with
  | none => right; exact ⟨.typeError, rfl, fun r => rfl⟩
  | some un =>
    by_cases hd : un.dim = t.dim
    · left; exact ⟨un, rfl, hd, by simp [hd]⟩
    · right; exact ⟨.unitsError, by simp [hd], fun r => by simp [unitVerdict, hd]⟩

theorem toEdges_ok (x : Arg K (List (FV K))) (t un : PhysUnit K) (h : x.unit = some un) (hd : un.dim = t.dim) :
    toEdges x t = .ok (x.data.map fun v => FV.fin (un.scale / t.scale) * v) := by simp [toEdges, h, hd]

/-- the converted, transposed array -/
def conv (x : Arg K (ND (FV K))) (un t : PhysUnit K) : ND (FV K) :=
  ⟨(transposeRow x.data).shape, fun idx => FV.fin (un.scale / t.scale) * (transposeRow x.data).get idx⟩

/-- the converted edges -/
def convEdges (x : Arg K (List (FV K))) (un t : PhysUnit K) : List (FV K) :=
  x.data.map fun v => FV.fin (un.scale / t.scale) * v

theorem toData_ok (x : Arg K (ND (FV K))) (t un : PhysUnit K) (h : x.unit = some un) (hd : un.dim = t.dim) :
    toData x t = .ok (conv x un t) := by simp [toData, h, hd, conv]

theorem cref_of (h : Hdu K) (name : String) (pos : ℕ) (axes : List String) (t : PhysUnit K) (x : Arg K (ND (FV K)))
    (bins : List (Arg K (List (FV K)))) (hpos : 1 ≤ pos) (hcol : h.columns[pos - 1]? = h.column? name)
    (hS : StoresData h name t x) (hlen : axes.length = bins.length)
    (hA : ∀ (k : ℕ) (a : String) (b : Arg K (List (FV K))), axes[k]? = some a → bins[k]? = some b → ∃ u, StoresAxis h a u b) :
    CrefConsistent h name pos axes x.data.shape bins := by
  obtain ⟨col, hc, _, hd, _⟩ := hS
  constructor
  · refine ⟨col, hcol.trans hc, hpos, ?_, hc⟩
    have := List.find?_some hc
    exact beq_iff_eq.mp this
  · intro hs col' hc'
    rw [hc] at hc'
    obtain rfl := Option.some.inj hc'
    refine ⟨by rw [hd, hs, List.length_map, hlen], ?_⟩
    intro k a d ha hk
    rw [hd, hs, List.getElem?_map] at hk
    cases hb : bins[k]? with
    | none => rw [hb] at hk; cases hk
    | some b =>
      rw [hb] at hk
      obtain rfl : b.data.length - 1 = d := Option.some.inj hk
      obtain ⟨u, lo, hi, h1, h2, _, _, h3, h4, _⟩ := hA k a b ha hb
      exact ⟨lo, hi, h1, h2, h3, h4⟩

/-- the result of `create_aeff2d_hdu` for arguments with suitable units -/
theorem aeff_ok (c : Consts K) (ctx : Ctx) (effectiveArea : Arg K (ND (FV K))) (trueEnergyBins fovOffsetBins : Arg K (List (FV K))) (pointLike : Bool)
    (u1 u2 u3 : PhysUnit K) (h1 : effectiveArea.unit = some u1) (h2 : trueEnergyBins.unit = some u2) (h3 : fovOffsetBins.unit = some u3)
    (d1 : u1.dim = (m2 : PhysUnit K).dim) (d2 : u2.dim = (teV c : PhysUnit K).dim) (d3 : u3.dim = (degree c : PhysUnit K).dim) :
    createAeff2dHdu c ctx effectiveArea trueEnergyBins fovOffsetBins pointLike = .ok (binTableHDU ctx
      (loHi "ENERG_LO" "ENERG_HI" (some (teV c)) (convEdges trueEnergyBins u2 (teV c)) ++
       loHi "THETA_LO" "THETA_HI" (some (degree c)) (convEdges fovOffsetBins u3 (degree c)) ++
       [⟨"EFFAREA", some (m2), conv effectiveArea u1 (m2)⟩])
      (addHeaderCards (gadfCards ctx "EFF_AREA" (if pointLike then "POINT-LIKE" else "FULL-ENCLOSURE") "AEFF_2D" [] 5 ["ENERG", "THETA"]) ctx.cards)) := by
  have q1 : quantityInput effectiveArea (m2) = .ok () := by simp [quantityInput, h1, d1]
  have q2 : quantityInput trueEnergyBins (teV c) = .ok () := by simp [quantityInput, h2, d2]
  have q3 : quantityInput fovOffsetBins (degree c) = .ok () := by simp [quantityInput, h3, d3]
  unfold createAeff2dHdu
  rw [q1, q2, q3, toEdges_ok trueEnergyBins _ u2 h2 d2, toEdges_ok fovOffsetBins _ u3 h3 d3, toData_ok effectiveArea _ u1 h1 d1]
  rfl

/-- the product of two units -/
def PhysUnit.times (a b : PhysUnit K) : PhysUnit K :=
  ⟨⟨a.dim.m + b.dim.m, a.dim.kg + b.dim.kg, a.dim.s + b.dim.s, a.dim.rad + b.dim.rad⟩, a.scale * b.scale⟩

/-- the inverse of a unit -/
def PhysUnit.per (a : PhysUnit K) : PhysUnit K := ⟨⟨-a.dim.m, -a.dim.kg, -a.dim.s, -a.dim.rad⟩, a.scale⁻¹⟩

/-- the base units metre, kilogram, second, radian, and multiples of a unit -/
def metre : PhysUnit K := ⟨⟨1, 0, 0, 0⟩, 1⟩
/-- kilogram -/
def kilogram : PhysUnit K := ⟨⟨0, 1, 0, 0⟩, 1⟩
/-- second -/
def second : PhysUnit K := ⟨⟨0, 0, 1, 0⟩, 1⟩
/-- radian -/
def radian : PhysUnit K := ⟨⟨0, 0, 0, 1⟩, 1⟩
/-- a multiple of a unit -/
def PhysUnit.multiple (x : K) (a : PhysUnit K) : PhysUnit K := ⟨a.dim, x * a.scale⟩
/-- the electron volt -/
def electronVolt (c : Consts K) : PhysUnit K := PhysUnit.multiple c.eV (kilogram.times ((metre.times metre).times (second.times second).per))

/-- **C67** (units) The units in which the functions store their columns: m², TeV, degree, 1/sr, 1/(MeV s sr), and no unit at all. -/
theorem C67_units (c : Consts K) :
    (m2 : PhysUnit K) = metre.times metre ∧ teV c = (electronVolt c).multiple (10 ^ 12) ∧ degree c = radian.multiple c.deg ∧
    (perSr : PhysUnit K) = (radian.times radian).per ∧
    bkgUnit c = (((electronVolt c).multiple (10 ^ 6)).times (second.times (radian.times radian))).per ∧
    (unitOne : PhysUnit K) = metre.times metre.per := by
  refine ⟨?_, ?_, ?_, ?_, ?_, ?_⟩ <;>
    simp [m2, teV, degree, perSr, bkgUnit, unitOne, Dim.one, PhysUnit.times, PhysUnit.per, PhysUnit.multiple, electronVolt, metre, kilogram, second, radian]

/-- **C67** `create_aeff2d_hdu`: the HDU holds the given edges and array, whatever units and shapes they have. -/
theorem C67_aeff (c : Consts K) (hE : 0 < c.eV) (hD : 0 < c.deg) (ctx : Ctx) (effectiveArea : Arg K (ND (FV K))) (trueEnergyBins fovOffsetBins : Arg K (List (FV K))) (pointLike : Bool) (h : Hdu K)
    (hok : createAeff2dHdu c ctx effectiveArea trueEnergyBins fovOffsetBins pointLike = .ok h) :
    h.columns.map Column.name = ["ENERG_LO", "ENERG_HI", "THETA_LO", "THETA_HI", "EFFAREA"] ∧
    StoresAxis h "ENERG" (some (teV c)) trueEnergyBins ∧
    StoresAxis h "THETA" (some (degree c)) fovOffsetBins ∧
    StoresData h "EFFAREA" (m2) effectiveArea ∧
    HeaderIs ctx h.header (gadfCards ctx "EFF_AREA" (if pointLike then "POINT-LIKE" else "FULL-ENCLOSURE") "AEFF_2D" [] 5 ["ENERG", "THETA"]) ∧
    CrefConsistent h "EFFAREA" 5 ["ENERG", "THETA"] effectiveArea.data.shape [trueEnergyBins, fovOffsetBins] := by
  obtain ⟨u1, h1, d1, q1⟩ | ⟨e, q1, _⟩ := quantityInput_cases effectiveArea (m2 : PhysUnit K)
  swap; · rw [createAeff2dHdu, q1] at hok; cases hok
  obtain ⟨u2, h2, d2, q2⟩ | ⟨e, q2, _⟩ := quantityInput_cases trueEnergyBins (teV c : PhysUnit K)
  swap; · rw [createAeff2dHdu, q1, q2] at hok; cases hok
  obtain ⟨u3, h3, d3, q3⟩ | ⟨e, q3, _⟩ := quantityInput_cases fovOffsetBins (degree c : PhysUnit K)
  swap; · rw [createAeff2dHdu, q1, q2, q3] at hok; cases hok
  rw [aeff_ok c ctx _ _ _ pointLike u1 u2 u3 h1 h2 h3 d1 d2 d3 ] at hok
  have hh := Except.ok.inj hok
  have a1 : StoresAxis h "ENERG" (some (teV c)) trueEnergyBins := storesAxis_of h _ "ENERG_LO" "ENERG_HI" _ _ (convEdges trueEnergyBins u2 (teV c))
    (by rw [← hh]; rfl) (by rw [← hh]; rfl) (by simp [convEdges]) (edges_convert u2 _ (by simp [teV, hE]) _ h2)
  have a2 : StoresAxis h "THETA" (some (degree c)) fovOffsetBins := storesAxis_of h _ "THETA_LO" "THETA_HI" _ _ (convEdges fovOffsetBins u3 (degree c))
    (by rw [← hh]; rfl) (by rw [← hh]; rfl) (by simp [convEdges]) (edges_convert u3 _ (by simp [degree, hD]) _ h3)
  have ad : StoresData h "EFFAREA" (m2) effectiveArea := storesData_of h _ u1 (m2) (by simp [m2]) _
    (fun v => by rw [h1]) (by rw [← hh]; rfl)
  refine ⟨by rw [← hh]; rfl, a1, a2, ad, by rw [← hh]; exact headerIs_binTable _ _ _,
    cref_of h _ _ _ _ _ _ (by norm_num) (by rw [← hh]; rfl) ad rfl ?_⟩
  intro k a b ha hb
  match k with
  | 0 => cases ha; cases hb; exact ⟨_, a1⟩
  | 1 => cases ha; cases hb; exact ⟨_, a2⟩

/-- the result of `create_psf_table_hdu` for arguments with suitable units -/
theorem psf_ok (c : Consts K) (ctx : Ctx) (psf : Arg K (ND (FV K))) (trueEnergyBins sourceOffsetBins fovOffsetBins : Arg K (List (FV K)))
    (u1 u2 u3 u4 : PhysUnit K) (h1 : psf.unit = some u1) (h2 : trueEnergyBins.unit = some u2) (h3 : sourceOffsetBins.unit = some u3) (h4 : fovOffsetBins.unit = some u4)
    (d1 : u1.dim = (perSr : PhysUnit K).dim) (d2 : u2.dim = (teV c : PhysUnit K).dim) (d3 : u3.dim = (degree c : PhysUnit K).dim) (d4 : u4.dim = (degree c : PhysUnit K).dim) :
    createPsfTableHdu c ctx psf trueEnergyBins sourceOffsetBins fovOffsetBins = .ok (binTableHDU ctx
      (loHi "ENERG_LO" "ENERG_HI" (some (teV c)) (convEdges trueEnergyBins u2 (teV c)) ++
       loHi "THETA_LO" "THETA_HI" (some (degree c)) (convEdges fovOffsetBins u4 (degree c)) ++
       loHi "RAD_LO" "RAD_HI" (some (degree c)) (convEdges sourceOffsetBins u3 (degree c)) ++
       [⟨"RPSF", some (perSr), conv psf u1 (perSr)⟩])
      (addHeaderCards (gadfCards ctx "PSF" "FULL-ENCLOSURE" "PSF_TABLE" [] 7 ["ENERG", "THETA", "RAD"]) ctx.cards)) := by
  have q1 : quantityInput psf (perSr) = .ok () := by simp [quantityInput, h1, d1]
  have q2 : quantityInput trueEnergyBins (teV c) = .ok () := by simp [quantityInput, h2, d2]
  have q3 : quantityInput sourceOffsetBins (degree c) = .ok () := by simp [quantityInput, h3, d3]
  have q4 : quantityInput fovOffsetBins (degree c) = .ok () := by simp [quantityInput, h4, d4]
  unfold createPsfTableHdu
  rw [q1, q2, q3, q4, toEdges_ok trueEnergyBins _ u2 h2 d2, toEdges_ok fovOffsetBins _ u4 h4 d4, toEdges_ok sourceOffsetBins _ u3 h3 d3, toData_ok psf _ u1 h1 d1]
  rfl

/-- **C67** `create_psf_table_hdu`: the HDU holds the given edges and array, whatever units and shapes they have. -/
theorem C67_psf (c : Consts K) (hE : 0 < c.eV) (hD : 0 < c.deg) (ctx : Ctx) (psf : Arg K (ND (FV K))) (trueEnergyBins sourceOffsetBins fovOffsetBins : Arg K (List (FV K))) (h : Hdu K)
    (hok : createPsfTableHdu c ctx psf trueEnergyBins sourceOffsetBins fovOffsetBins = .ok h) :
    h.columns.map Column.name = ["ENERG_LO", "ENERG_HI", "THETA_LO", "THETA_HI", "RAD_LO", "RAD_HI", "RPSF"] ∧
    StoresAxis h "ENERG" (some (teV c)) trueEnergyBins ∧
    StoresAxis h "THETA" (some (degree c)) fovOffsetBins ∧
    StoresAxis h "RAD" (some (degree c)) sourceOffsetBins ∧
    StoresData h "RPSF" (perSr) psf ∧
    HeaderIs ctx h.header (gadfCards ctx "PSF" "FULL-ENCLOSURE" "PSF_TABLE" [] 7 ["ENERG", "THETA", "RAD"]) ∧
    CrefConsistent h "RPSF" 7 ["ENERG", "THETA", "RAD"] psf.data.shape [trueEnergyBins, fovOffsetBins, sourceOffsetBins] := by
  obtain ⟨u1, h1, d1, q1⟩ | ⟨e, q1, _⟩ := quantityInput_cases psf (perSr : PhysUnit K)
  swap; · rw [createPsfTableHdu, q1] at hok; cases hok
  obtain ⟨u2, h2, d2, q2⟩ | ⟨e, q2, _⟩ := quantityInput_cases trueEnergyBins (teV c : PhysUnit K)
  swap; · rw [createPsfTableHdu, q1, q2] at hok; cases hok
  obtain ⟨u3, h3, d3, q3⟩ | ⟨e, q3, _⟩ := quantityInput_cases sourceOffsetBins (degree c : PhysUnit K)
  swap; · rw [createPsfTableHdu, q1, q2, q3] at hok; cases hok
  obtain ⟨u4, h4, d4, q4⟩ | ⟨e, q4, _⟩ := quantityInput_cases fovOffsetBins (degree c : PhysUnit K)
  swap; · rw [createPsfTableHdu, q1, q2, q3, q4] at hok; cases hok
  rw [psf_ok c ctx _ _ _ _ u1 u2 u3 u4 h1 h2 h3 h4 d1 d2 d3 d4 ] at hok
  have hh := Except.ok.inj hok
  have a1 : StoresAxis h "ENERG" (some (teV c)) trueEnergyBins := storesAxis_of h _ "ENERG_LO" "ENERG_HI" _ _ (convEdges trueEnergyBins u2 (teV c))
    (by rw [← hh]; rfl) (by rw [← hh]; rfl) (by simp [convEdges]) (edges_convert u2 _ (by simp [teV, hE]) _ h2)
  have a2 : StoresAxis h "THETA" (some (degree c)) fovOffsetBins := storesAxis_of h _ "THETA_LO" "THETA_HI" _ _ (convEdges fovOffsetBins u4 (degree c))
    (by rw [← hh]; rfl) (by rw [← hh]; rfl) (by simp [convEdges]) (edges_convert u4 _ (by simp [degree, hD]) _ h4)
  have a3 : StoresAxis h "RAD" (some (degree c)) sourceOffsetBins := storesAxis_of h _ "RAD_LO" "RAD_HI" _ _ (convEdges sourceOffsetBins u3 (degree c))
    (by rw [← hh]; rfl) (by rw [← hh]; rfl) (by simp [convEdges]) (edges_convert u3 _ (by simp [degree, hD]) _ h3)
  have ad : StoresData h "RPSF" (perSr) psf := storesData_of h _ u1 (perSr) (by simp [perSr]) _
    (fun v => by rw [h1]) (by rw [← hh]; rfl)
  refine ⟨by rw [← hh]; rfl, a1, a2, a3, ad, by rw [← hh]; exact headerIs_binTable _ _ _,
    cref_of h _ _ _ _ _ _ (by norm_num) (by rw [← hh]; rfl) ad rfl ?_⟩
  intro k a b ha hb
  match k with
  | 0 => cases ha; cases hb; exact ⟨_, a1⟩
  | 1 => cases ha; cases hb; exact ⟨_, a2⟩
  | 2 => cases ha; cases hb; exact ⟨_, a3⟩

/-- the result of `create_energy_dispersion_hdu` for arguments with suitable units -/
theorem edisp_ok (c : Consts K) (ctx : Ctx) (energyDispersion : Arg K (ND (FV K))) (trueEnergyBins migrationBins fovOffsetBins : Arg K (List (FV K))) (pointLike : Bool)
    (u1 u2 : PhysUnit K) (h1 : trueEnergyBins.unit = some u1) (h2 : fovOffsetBins.unit = some u2)
    (d1 : u1.dim = (teV c).dim) (d2 : u2.dim = (degree c).dim) (dd : (energyDispersion.unit.getD unitOne).dim = Dim.one) :
    createEnergyDispersionHdu c ctx energyDispersion trueEnergyBins migrationBins fovOffsetBins pointLike = .ok (binTableHDU ctx
      (loHi "ENERG_LO" "ENERG_HI" (some (teV c)) (convEdges trueEnergyBins u1 (teV c)) ++
       loHi "MIGRA_LO" "MIGRA_HI" migrationBins.unit migrationBins.data ++
       loHi "THETA_LO" "THETA_HI" (some (degree c)) (convEdges fovOffsetBins u2 (degree c)) ++
       [⟨"MATRIX", some (unitOne), conv energyDispersion (energyDispersion.unit.getD unitOne) (unitOne)⟩])
      (addHeaderCards (gadfCards ctx "EDISP" (if pointLike then "POINT-LIKE" else "FULL-ENCLOSURE") "EDISP_2D" [] 7 ["ENERG", "MIGRA", "THETA"]) ctx.cards)) := by
  have q1 : quantityInput trueEnergyBins (teV c) = .ok () := by simp [quantityInput, h1, d1]
  have q2 : quantityInput fovOffsetBins (degree c) = .ok () := by simp [quantityInput, h2, d2]
  unfold createEnergyDispersionHdu
  rw [q1, q2, toEdges_ok trueEnergyBins _ u1 h1 d1, toEdges_ok fovOffsetBins _ u2 h2 d2, toDataOne, toData_ok _ _ (energyDispersion.unit.getD unitOne) rfl dd]
  rfl

/-- **C67** `create_energy_dispersion_hdu`: the HDU holds the given edges and array, whatever units and shapes they have. -/
theorem C67_edisp (c : Consts K) (hE : 0 < c.eV) (hD : 0 < c.deg) (ctx : Ctx) (energyDispersion : Arg K (ND (FV K))) (trueEnergyBins migrationBins fovOffsetBins : Arg K (List (FV K))) (pointLike : Bool) (h : Hdu K)
    (hok : createEnergyDispersionHdu c ctx energyDispersion trueEnergyBins migrationBins fovOffsetBins pointLike = .ok h) :
    h.columns.map Column.name = ["ENERG_LO", "ENERG_HI", "MIGRA_LO", "MIGRA_HI", "THETA_LO", "THETA_HI", "MATRIX"] ∧
    StoresAxis h "ENERG" (some (teV c)) trueEnergyBins ∧
    StoresAxis h "MIGRA" migrationBins.unit migrationBins ∧
    StoresAxis h "THETA" (some (degree c)) fovOffsetBins ∧
    StoresData h "MATRIX" (unitOne) energyDispersion ∧
    HeaderIs ctx h.header (gadfCards ctx "EDISP" (if pointLike then "POINT-LIKE" else "FULL-ENCLOSURE") "EDISP_2D" [] 7 ["ENERG", "MIGRA", "THETA"]) ∧
    CrefConsistent h "MATRIX" 7 ["ENERG", "MIGRA", "THETA"] energyDispersion.data.shape [trueEnergyBins, migrationBins, fovOffsetBins] := by
  obtain ⟨u1, h1, d1, q1⟩ | ⟨e, q1, _⟩ := quantityInput_cases trueEnergyBins (teV c : PhysUnit K)
  swap; · rw [createEnergyDispersionHdu, q1] at hok; cases hok
  obtain ⟨u2, h2, d2, q2⟩ | ⟨e, q2, _⟩ := quantityInput_cases fovOffsetBins (degree c : PhysUnit K)
  swap; · rw [createEnergyDispersionHdu, q1, q2] at hok; cases hok
  have dd : (energyDispersion.unit.getD unitOne).dim = Dim.one := by
    by_contra hne
    have hdat : toDataOne energyDispersion = .error .unitsError := by
      unfold toDataOne toData
      exact if_neg hne
    rw [createEnergyDispersionHdu, q1, q2, toEdges_ok trueEnergyBins _ u1 h1 d1, toEdges_ok fovOffsetBins _ u2 h2 d2, hdat] at hok
    cases hok
  rw [edisp_ok c ctx _ _ _ _ pointLike u1 u2 h1 h2 d1 d2 dd] at hok
  have hh := Except.ok.inj hok
  have a1 : StoresAxis h "ENERG" (some (teV c)) trueEnergyBins := storesAxis_of h _ "ENERG_LO" "ENERG_HI" _ _ (convEdges trueEnergyBins u1 (teV c))
    (by rw [← hh]; rfl) (by rw [← hh]; rfl) (by simp [convEdges]) (edges_convert u1 _ (by simp [teV, hE]) _ h1)
  have a2 : StoresAxis h "MIGRA" migrationBins.unit migrationBins := storesAxis_of h _ "MIGRA_LO" "MIGRA_HI" _ _ migrationBins.data
    (by rw [← hh]; rfl) (by rw [← hh]; rfl) rfl (fun _ e he => ⟨e, he, rfl⟩)
  have a3 : StoresAxis h "THETA" (some (degree c)) fovOffsetBins := storesAxis_of h _ "THETA_LO" "THETA_HI" _ _ (convEdges fovOffsetBins u2 (degree c))
    (by rw [← hh]; rfl) (by rw [← hh]; rfl) (by simp [convEdges]) (edges_convert u2 _ (by simp [degree, hD]) _ h2)
  have hsi : ∀ v, si energyDispersion.unit v = si (some (energyDispersion.unit.getD unitOne)) v := by
    intro v
    cases energyDispersion.unit with
    | none => simp [si, unitOne]
    | some un => rfl
  have ad : StoresData h "MATRIX" (unitOne) energyDispersion := storesData_of h _ (energyDispersion.unit.getD unitOne) (unitOne) (by simp [unitOne]) _ hsi
    (by rw [← hh]; rfl)
  refine ⟨by rw [← hh]; rfl, a1, a2, a3, ad, by rw [← hh]; exact headerIs_binTable _ _ _,
    cref_of h _ _ _ _ _ _ (by norm_num) (by rw [← hh]; rfl) ad rfl ?_⟩
  intro k a b ha hb
  match k with
  | 0 => cases ha; cases hb; exact ⟨_, a1⟩
  | 1 => cases ha; cases hb; exact ⟨_, a2⟩
  | 2 => cases ha; cases hb; exact ⟨_, a3⟩

/-- the result of `create_background_2d_hdu` for arguments with suitable units -/
theorem bkg2d_ok (c : Consts K) (ctx : Ctx) (background2d : Arg K (ND (FV K))) (recoEnergyBins fovOffsetBins : Arg K (List (FV K)))
    (u1 u2 u3 : PhysUnit K) (h1 : background2d.unit = some u1) (h2 : recoEnergyBins.unit = some u2) (h3 : fovOffsetBins.unit = some u3)
    (d1 : u1.dim = (bkgUnit c : PhysUnit K).dim) (d2 : u2.dim = (teV c : PhysUnit K).dim) (d3 : u3.dim = (degree c : PhysUnit K).dim) :
    createBackground2dHdu c ctx background2d recoEnergyBins fovOffsetBins = .ok (binTableHDU ctx
      (loHi "ENERG_LO" "ENERG_HI" (some (teV c)) (convEdges recoEnergyBins u2 (teV c)) ++
       loHi "THETA_LO" "THETA_HI" (some (degree c)) (convEdges fovOffsetBins u3 (degree c)) ++
       [⟨"BKG", some (bkgUnit c), conv background2d u1 (bkgUnit c)⟩])
      (addHeaderCards (gadfCards ctx "BKG" "FULL-ENCLOSURE" "BKG_2D" [] 5 ["ENERG", "THETA"]) ctx.cards)) := by
  have q2 : quantityInput recoEnergyBins (teV c) = .ok () := by simp [quantityInput, h2, d2]
  have q3 : quantityInput fovOffsetBins (degree c) = .ok () := by simp [quantityInput, h3, d3]
  unfold createBackground2dHdu
  rw [q2, q3, toEdges_ok recoEnergyBins _ u2 h2 d2, toEdges_ok fovOffsetBins _ u3 h3 d3, toData_ok background2d _ u1 h1 d1]
  rfl

/-- **C67** `create_background_2d_hdu`: the HDU holds the given edges and array, whatever units and shapes they have. -/
theorem C67_bkg2d (c : Consts K) (hE : 0 < c.eV) (hD : 0 < c.deg) (ctx : Ctx) (background2d : Arg K (ND (FV K))) (recoEnergyBins fovOffsetBins : Arg K (List (FV K))) (h : Hdu K)
    (hok : createBackground2dHdu c ctx background2d recoEnergyBins fovOffsetBins = .ok h) :
    h.columns.map Column.name = ["ENERG_LO", "ENERG_HI", "THETA_LO", "THETA_HI", "BKG"] ∧
    StoresAxis h "ENERG" (some (teV c)) recoEnergyBins ∧
    StoresAxis h "THETA" (some (degree c)) fovOffsetBins ∧
    StoresData h "BKG" (bkgUnit c) background2d ∧
    HeaderIs ctx h.header (gadfCards ctx "BKG" "FULL-ENCLOSURE" "BKG_2D" [] 5 ["ENERG", "THETA"]) ∧
    CrefConsistent h "BKG" 5 ["ENERG", "THETA"] background2d.data.shape [recoEnergyBins, fovOffsetBins] := by
  obtain ⟨u2, h2, d2, q2⟩ | ⟨e, q2, _⟩ := quantityInput_cases recoEnergyBins (teV c : PhysUnit K)
  swap; · rw [createBackground2dHdu, q2] at hok; cases hok
  obtain ⟨u3, h3, d3, q3⟩ | ⟨e, q3, _⟩ := quantityInput_cases fovOffsetBins (degree c : PhysUnit K)
  swap; · rw [createBackground2dHdu, q2, q3] at hok; cases hok
  obtain ⟨u1, h1, d1⟩ : ∃ un, background2d.unit = some un ∧ un.dim = (bkgUnit c).dim := by
    by_contra hne
    have hdat : ∃ e, toData background2d (bkgUnit c) = .error e := by
      unfold toData
      cases hu : background2d.unit with
      | none => exact ⟨_, rfl⟩
      | some un => exact ⟨_, if_neg fun hd => hne ⟨un, hu, hd⟩⟩
    obtain ⟨e, hdat⟩ := hdat
    rw [createBackground2dHdu, q2, q3, toEdges_ok recoEnergyBins _ u2 h2 d2, toEdges_ok fovOffsetBins _ u3 h3 d3, hdat] at hok
    cases hok
  rw [bkg2d_ok c ctx _ _ _ u1 u2 u3 h1 h2 h3 d1 d2 d3 ] at hok
  have hh := Except.ok.inj hok
  have a1 : StoresAxis h "ENERG" (some (teV c)) recoEnergyBins := storesAxis_of h _ "ENERG_LO" "ENERG_HI" _ _ (convEdges recoEnergyBins u2 (teV c))
    (by rw [← hh]; rfl) (by rw [← hh]; rfl) (by simp [convEdges]) (edges_convert u2 _ (by simp [teV, hE]) _ h2)
  have a2 : StoresAxis h "THETA" (some (degree c)) fovOffsetBins := storesAxis_of h _ "THETA_LO" "THETA_HI" _ _ (convEdges fovOffsetBins u3 (degree c))
    (by rw [← hh]; rfl) (by rw [← hh]; rfl) (by simp [convEdges]) (edges_convert u3 _ (by simp [degree, hD]) _ h3)
  have ad : StoresData h "BKG" (bkgUnit c) background2d := storesData_of h _ u1 (bkgUnit c) (by simp [bkgUnit, hE]) _
    (fun v => by rw [h1]) (by rw [← hh]; rfl)
  refine ⟨by rw [← hh]; rfl, a1, a2, ad, by rw [← hh]; exact headerIs_binTable _ _ _,
    cref_of h _ _ _ _ _ _ (by norm_num) (by rw [← hh]; rfl) ad rfl ?_⟩
  intro k a b ha hb
  match k with
  | 0 => cases ha; cases hb; exact ⟨_, a1⟩
  | 1 => cases ha; cases hb; exact ⟨_, a2⟩

/-- the result of `create_background_3d_hdu` for arguments with suitable units -/
theorem bkg3d_ok (c : Consts K) (ctx : Ctx) (background3d : Arg K (ND (FV K))) (recoEnergyBins fovLonBins fovLatBins : Arg K (List (FV K))) (alignment : String)
    (u1 u2 u3 u4 : PhysUnit K) (h1 : background3d.unit = some u1) (h2 : recoEnergyBins.unit = some u2) (h3 : fovLonBins.unit = some u3) (h4 : fovLatBins.unit = some u4)
    (d1 : u1.dim = (bkgUnit c : PhysUnit K).dim) (d2 : u2.dim = (teV c : PhysUnit K).dim) (d3 : u3.dim = (degree c : PhysUnit K).dim) (d4 : u4.dim = (degree c : PhysUnit K).dim) (hal : alignment ∈ ["ALTAZ", "RADEC"]) :
    createBackground3dHdu c ctx background3d recoEnergyBins fovLonBins fovLatBins alignment = .ok (binTableHDU ctx
      (loHi "ENERG_LO" "ENERG_HI" (some (teV c)) (convEdges recoEnergyBins u2 (teV c)) ++
       loHi "DETX_LO" "DETX_HI" (some (degree c)) (convEdges fovLonBins u3 (degree c)) ++
       loHi "DETY_LO" "DETY_HI" (some (degree c)) (convEdges fovLatBins u4 (degree c)) ++
       [⟨"BKG", some (bkgUnit c), conv background3d u1 (bkgUnit c)⟩])
      (addHeaderCards (gadfCards ctx "BKG" "FULL-ENCLOSURE" "BKG_3D" [("FOVALIGN", .str alignment)] 7 ["ENERG", "DETX", "DETY"]) ctx.cards)) := by
  have q2 : quantityInput recoEnergyBins (teV c) = .ok () := by simp [quantityInput, h2, d2]
  have q3 : quantityInput fovLonBins (degree c) = .ok () := by simp [quantityInput, h3, d3]
  have q4 : quantityInput fovLatBins (degree c) = .ok () := by simp [quantityInput, h4, d4]
  unfold createBackground3dHdu
  rw [q2, q3, q4, toEdges_ok recoEnergyBins _ u2 h2 d2, toEdges_ok fovLonBins _ u3 h3 d3, toEdges_ok fovLatBins _ u4 h4 d4, toData_ok background3d _ u1 h1 d1]
  simp only [if_pos hal]
  rfl

/-- **C67** `create_background_3d_hdu`: the HDU holds the given edges and array, whatever units and shapes they have. -/
theorem C67_bkg3d (c : Consts K) (hE : 0 < c.eV) (hD : 0 < c.deg) (ctx : Ctx) (background3d : Arg K (ND (FV K))) (recoEnergyBins fovLonBins fovLatBins : Arg K (List (FV K))) (alignment : String) (h : Hdu K)
    (hok : createBackground3dHdu c ctx background3d recoEnergyBins fovLonBins fovLatBins alignment = .ok h) :
    h.columns.map Column.name = ["ENERG_LO", "ENERG_HI", "DETX_LO", "DETX_HI", "DETY_LO", "DETY_HI", "BKG"] ∧
    StoresAxis h "ENERG" (some (teV c)) recoEnergyBins ∧
    StoresAxis h "DETX" (some (degree c)) fovLonBins ∧
    StoresAxis h "DETY" (some (degree c)) fovLatBins ∧
    StoresData h "BKG" (bkgUnit c) background3d ∧
    HeaderIs ctx h.header (gadfCards ctx "BKG" "FULL-ENCLOSURE" "BKG_3D" [("FOVALIGN", .str alignment)] 7 ["ENERG", "DETX", "DETY"]) ∧
    CrefConsistent h "BKG" 7 ["ENERG", "DETX", "DETY"] background3d.data.shape [recoEnergyBins, fovLonBins, fovLatBins] := by
  obtain ⟨u2, h2, d2, q2⟩ | ⟨e, q2, _⟩ := quantityInput_cases recoEnergyBins (teV c : PhysUnit K)
  swap; · rw [createBackground3dHdu, q2] at hok; cases hok
  obtain ⟨u3, h3, d3, q3⟩ | ⟨e, q3, _⟩ := quantityInput_cases fovLonBins (degree c : PhysUnit K)
  swap; · rw [createBackground3dHdu, q2, q3] at hok; cases hok
  obtain ⟨u4, h4, d4, q4⟩ | ⟨e, q4, _⟩ := quantityInput_cases fovLatBins (degree c : PhysUnit K)
  swap; · rw [createBackground3dHdu, q2, q3, q4] at hok; cases hok
  obtain ⟨u1, h1, d1⟩ : ∃ un, background3d.unit = some un ∧ un.dim = (bkgUnit c).dim := by
    by_contra hne
    have hdat : ∃ e, toData background3d (bkgUnit c) = .error e := by
      unfold toData
      cases hu : background3d.unit with
      | none => exact ⟨_, rfl⟩
      | some un => exact ⟨_, if_neg fun hd => hne ⟨un, hu, hd⟩⟩
    obtain ⟨e, hdat⟩ := hdat
    rw [createBackground3dHdu, q2, q3, q4, toEdges_ok recoEnergyBins _ u2 h2 d2, toEdges_ok fovLonBins _ u3 h3 d3, toEdges_ok fovLatBins _ u4 h4 d4, hdat] at hok
    cases hok
  have hal : alignment ∈ ["ALTAZ", "RADEC"] := by
    by_contra hal
    rw [createBackground3dHdu, q2, q3, q4, toEdges_ok recoEnergyBins _ u2 h2 d2, toEdges_ok fovLonBins _ u3 h3 d3, toEdges_ok fovLatBins _ u4 h4 d4, toData_ok background3d _ u1 h1 d1] at hok
    simp only [if_neg hal] at hok
    cases hok
  rw [bkg3d_ok c ctx _ _ _ _ alignment u1 u2 u3 u4 h1 h2 h3 h4 d1 d2 d3 d4 hal] at hok
  have hh := Except.ok.inj hok
  have a1 : StoresAxis h "ENERG" (some (teV c)) recoEnergyBins := storesAxis_of h _ "ENERG_LO" "ENERG_HI" _ _ (convEdges recoEnergyBins u2 (teV c))
    (by rw [← hh]; rfl) (by rw [← hh]; rfl) (by simp [convEdges]) (edges_convert u2 _ (by simp [teV, hE]) _ h2)
  have a2 : StoresAxis h "DETX" (some (degree c)) fovLonBins := storesAxis_of h _ "DETX_LO" "DETX_HI" _ _ (convEdges fovLonBins u3 (degree c))
    (by rw [← hh]; rfl) (by rw [← hh]; rfl) (by simp [convEdges]) (edges_convert u3 _ (by simp [degree, hD]) _ h3)
  have a3 : StoresAxis h "DETY" (some (degree c)) fovLatBins := storesAxis_of h _ "DETY_LO" "DETY_HI" _ _ (convEdges fovLatBins u4 (degree c))
    (by rw [← hh]; rfl) (by rw [← hh]; rfl) (by simp [convEdges]) (edges_convert u4 _ (by simp [degree, hD]) _ h4)
  have ad : StoresData h "BKG" (bkgUnit c) background3d := storesData_of h _ u1 (bkgUnit c) (by simp [bkgUnit, hE]) _
    (fun v => by rw [h1]) (by rw [← hh]; rfl)
  refine ⟨by rw [← hh]; rfl, a1, a2, a3, ad, by rw [← hh]; exact headerIs_binTable _ _ _,
    cref_of h _ _ _ _ _ _ (by norm_num) (by rw [← hh]; rfl) ad rfl ?_⟩
  intro k a b ha hb
  match k with
  | 0 => cases ha; cases hb; exact ⟨_, a1⟩
  | 1 => cases ha; cases hb; exact ⟨_, a2⟩
  | 2 => cases ha; cases hb; exact ⟨_, a3⟩

/-- the result of `create_rad_max_hdu` for arguments with suitable units -/
theorem radmax_ok (c : Consts K) (ctx : Ctx) (radMax : Arg K (ND (FV K))) (recoEnergyBins fovOffsetBins : Arg K (List (FV K))) (pointLike : Bool)
    (u1 u2 u3 : PhysUnit K) (h1 : radMax.unit = some u1) (h2 : recoEnergyBins.unit = some u2) (h3 : fovOffsetBins.unit = some u3)
    (d1 : u1.dim = (degree c : PhysUnit K).dim) (d2 : u2.dim = (teV c : PhysUnit K).dim) (d3 : u3.dim = (degree c : PhysUnit K).dim) :
    createRadMaxHdu c ctx radMax recoEnergyBins fovOffsetBins pointLike = .ok (binTableHDU ctx
      (loHi "ENERG_LO" "ENERG_HI" (some (teV c)) (convEdges recoEnergyBins u2 (teV c)) ++
       loHi "THETA_LO" "THETA_HI" (some (degree c)) (convEdges fovOffsetBins u3 (degree c)) ++
       [⟨"RAD_MAX", some (degree c), conv radMax u1 (degree c)⟩])
      (addHeaderCards (gadfCards ctx "RAD_MAX" "POINT-LIKE" "RAD_MAX_2D" [] 5 ["ENERG", "THETA"]) ctx.cards)) := by
  have q1 : quantityInput radMax (degree c) = .ok () := by simp [quantityInput, h1, d1]
  have q2 : quantityInput recoEnergyBins (teV c) = .ok () := by simp [quantityInput, h2, d2]
  have q3 : quantityInput fovOffsetBins (degree c) = .ok () := by simp [quantityInput, h3, d3]
  unfold createRadMaxHdu
  rw [q1, q2, q3, toEdges_ok recoEnergyBins _ u2 h2 d2, toEdges_ok fovOffsetBins _ u3 h3 d3, toData_ok radMax _ u1 h1 d1]
  rfl

/-- **C67** `create_rad_max_hdu`: the HDU holds the given edges and array, whatever units and shapes they have. -/
theorem C67_radmax (c : Consts K) (hE : 0 < c.eV) (hD : 0 < c.deg) (ctx : Ctx) (radMax : Arg K (ND (FV K))) (recoEnergyBins fovOffsetBins : Arg K (List (FV K))) (pointLike : Bool) (h : Hdu K)
    (hok : createRadMaxHdu c ctx radMax recoEnergyBins fovOffsetBins pointLike = .ok h) :
    h.columns.map Column.name = ["ENERG_LO", "ENERG_HI", "THETA_LO", "THETA_HI", "RAD_MAX"] ∧
    StoresAxis h "ENERG" (some (teV c)) recoEnergyBins ∧
    StoresAxis h "THETA" (some (degree c)) fovOffsetBins ∧
    StoresData h "RAD_MAX" (degree c) radMax ∧
    HeaderIs ctx h.header (gadfCards ctx "RAD_MAX" "POINT-LIKE" "RAD_MAX_2D" [] 5 ["ENERG", "THETA"]) ∧
    CrefConsistent h "RAD_MAX" 5 ["ENERG", "THETA"] radMax.data.shape [recoEnergyBins, fovOffsetBins] := by
  obtain ⟨u1, h1, d1, q1⟩ | ⟨e, q1, _⟩ := quantityInput_cases radMax (degree c : PhysUnit K)
  swap; · rw [createRadMaxHdu, q1] at hok; cases hok
  obtain ⟨u2, h2, d2, q2⟩ | ⟨e, q2, _⟩ := quantityInput_cases recoEnergyBins (teV c : PhysUnit K)
  swap; · rw [createRadMaxHdu, q1, q2] at hok; cases hok
  obtain ⟨u3, h3, d3, q3⟩ | ⟨e, q3, _⟩ := quantityInput_cases fovOffsetBins (degree c : PhysUnit K)
  swap; · rw [createRadMaxHdu, q1, q2, q3] at hok; cases hok
  rw [radmax_ok c ctx _ _ _ pointLike u1 u2 u3 h1 h2 h3 d1 d2 d3 ] at hok
  have hh := Except.ok.inj hok
  have a1 : StoresAxis h "ENERG" (some (teV c)) recoEnergyBins := storesAxis_of h _ "ENERG_LO" "ENERG_HI" _ _ (convEdges recoEnergyBins u2 (teV c))
    (by rw [← hh]; rfl) (by rw [← hh]; rfl) (by simp [convEdges]) (edges_convert u2 _ (by simp [teV, hE]) _ h2)
  have a2 : StoresAxis h "THETA" (some (degree c)) fovOffsetBins := storesAxis_of h _ "THETA_LO" "THETA_HI" _ _ (convEdges fovOffsetBins u3 (degree c))
    (by rw [← hh]; rfl) (by rw [← hh]; rfl) (by simp [convEdges]) (edges_convert u3 _ (by simp [degree, hD]) _ h3)
  have ad : StoresData h "RAD_MAX" (degree c) radMax := storesData_of h _ u1 (degree c) (by simp [degree, hD]) _
    (fun v => by rw [h1]) (by rw [← hh]; rfl)
  refine ⟨by rw [← hh]; rfl, a1, a2, ad, by rw [← hh]; exact headerIs_binTable _ _ _,
    cref_of h _ _ _ _ _ _ (by norm_num) (by rw [← hh]; rfl) ad rfl ?_⟩
  intro k a b ha hb
  match k with
  | 0 => cases ha; cases hb; exact ⟨_, a1⟩
  | 1 => cases ha; cases hb; exact ⟨_, a2⟩

theorem fin_mul_inj {a : K} (ha : 0 < a) {v w : FV K} (h : FV.fin a * v = FV.fin a * w) : v = w := by
  have hp : (FV.fin a * FV.pinf : FV K) = FV.pinf := by
    show FV.infSign a = _
    rw [FV.infSign, if_neg ha.ne', if_pos ha]
  have hn : (FV.fin a * FV.ninf : FV K) = FV.ninf := by
    show FV.infSign (-a) = _
    have : -a < 0 := by linarith
    rw [FV.infSign, if_neg this.ne, if_neg this.not_gt]
  cases v <;> cases w <;> simp only [hp, hn, FV.mul_nan, FV.fin_mul_fin, FV.fin.injEq, reduceCtorEq, mul_eq_mul_left_iff, ha.ne', or_false] at h <;>
    first | rfl | rw [h]

theorem fin_mul_ne_nan {a : K} (ha : 0 < a) {v : FV K} (h : v ≠ FV.nan) : FV.fin a * v ≠ FV.nan := by
  intro e
  exact h (fin_mul_inj ha (e.trans (FV.mul_nan _).symm))

/-- the scale of a unit, 1 for plain arrays -/
def scaleOf (u : Option (PhysUnit K)) : K := (u.map PhysUnit.scale).getD 1

/-- **C67** The LO and HI columns of every axis recombine with `join_bin_lo_hi` to the given edges (at least two, none NaN). -/
theorem C67_recombine (h : Hdu K) (axis : String) (unit : Option (PhysUnit K)) (x : Arg K (List (FV K)))
    (hs : StoresAxis h axis unit x) (hu : 0 < scaleOf unit) (hx : 0 < scaleOf x.unit)
    (hlen : 2 ≤ x.data.length) (hn : ∀ e ∈ x.data, e ≠ FV.nan) :
    ∃ lo hi es, h.column? (axis ++ "_LO") = some lo ∧ h.column? (axis ++ "_HI") = some hi ∧
      joinBinLoHi [lo.data] [hi.data] = .ok [es] ∧ es.map (si unit) = x.data.map (si x.unit) := by
  obtain ⟨lo, hi, h1, h2, _, _, hd1, hd2, hl1, hl2, hr⟩ := hs
  have hloread : ∀ i, lo.read [i] = lo.data[i]? := by
    intro i; rw [Column.read, hd1]; simp [fitsOffset]
  have hhiread : ∀ i, hi.read [i] = hi.data[i]? := by
    intro i; rw [Column.read, hd2]; simp [fitsOffset]
  have hlo : ∀ i (hi' : i + 1 < x.data.length), ∃ v, lo.data[i]? = some v ∧ si unit v = si x.unit x.data[i] := by
    intro i hi'
    have := (hr i x.data[i] x.data[i + 1] (List.getElem?_eq_getElem _) (List.getElem?_eq_getElem _)).1
    rwa [hloread] at this
  have hhi : ∀ i (hi' : i + 1 < x.data.length), ∃ v, hi.data[i]? = some v ∧ si unit v = si x.unit x.data[i + 1] := by
    intro i hi'
    have := (hr i x.data[i] x.data[i + 1] (List.getElem?_eq_getElem _) (List.getElem?_eq_getElem _)).2
    rwa [hhiread] at this
  obtain ⟨w, hw, hwe⟩ := hhi (x.data.length - 2) (by omega)
  set es := lo.data ++ [w] with hes
  have hlast : hi.data.getLast? = some w := by
    rw [List.getLast?_eq_getElem?, hl2]
    exact hw
  have heslen : es.length = x.data.length := by simp [hes, hl1]; omega
  have hget : ∀ i (hi' : i < x.data.length), ∃ v, es[i]? = some v ∧ si unit v = si x.unit x.data[i] := by
    intro i hi'
    by_cases hlt : i + 1 < x.data.length
    · obtain ⟨v, hv, hve⟩ := hlo i hlt
      refine ⟨v, ?_, hve⟩
      rw [hes, List.getElem?_append_left (by omega), hv]
    · have hie : i = x.data.length - 1 := by omega
      refine ⟨w, ?_, ?_⟩
      · rw [hes, List.getElem?_append_right (by omega), hl1, hie]
        simp
      · rw [hwe]
        congr 2
        omega
  have htail : es.tail = hi.data := by
    apply List.ext_getElem?
    intro i
    rw [List.getElem?_tail]
    by_cases hlt : i + 1 < x.data.length
    · obtain ⟨v, hv, hve⟩ := hhi i hlt
      obtain ⟨v', hv', hve'⟩ := hget (i + 1) hlt
      rw [hv, hv']
      exact congrArg some (fin_mul_inj hu (hve'.trans hve.symm))
    · rw [List.getElem?_eq_none (by omega), List.getElem?_eq_none (by omega)]
  have hnan : ∀ e ∈ es, e ≠ FV.nan := by
    intro e he hen
    obtain ⟨i, hi', hie⟩ := List.getElem_of_mem he
    have hi'' : i < x.data.length := by omega
    obtain ⟨v, hv, hve⟩ := hget i hi''
    rw [List.getElem?_eq_getElem hi', hie] at hv
    obtain rfl := Option.some.inj hv
    rw [hen] at hve
    have hnn : si x.unit x.data[i] ≠ FV.nan := fin_mul_ne_nan hx (hn _ (List.getElem_mem _))
    exact hnn (hve.symm.trans (FV.mul_nan _))
  have hjoin := C03_join_split [es] (by simpa using by omega) (by simpa using hnan)
  have hsplit : splitBinLoHi [es] = ([lo.data], [hi.data]) := by
    simp only [splitBinLoHi, List.map_cons, List.map_nil, htail]
    rw [hes, List.dropLast_concat]
  rw [hsplit] at hjoin
  refine ⟨lo, hi, es, h1, h2, hjoin, ?_⟩
  apply List.ext_getElem (by simp [heslen])
  intro i hi1 hi2
  simp only [List.length_map] at hi1 hi2
  obtain ⟨v, hv, hve⟩ := hget i hi2
  rw [List.getElem?_eq_getElem hi1] at hv
  rw [List.getElem_map, List.getElem_map, Option.some.inj hv, hve]

/-- Every error of a call is the verdict on the listed arguments. -/
def FailsLike (r : Except Err (Hdu K)) (v : Option Err) : Prop := ∀ e, r = .error e ↔ v = some e

/-- the verdict on an array that is only converted (`.to`): AttributeError without a unit -/
def convertVerdict (u : Option (PhysUnit K)) (t : PhysUnit K) : Option Err :=
  match u with
  | none => some .attributeError
  | some u => if u.dim = t.dim then none else some .unitsError

/-- **C67** `create_aeff2d_hdu` fails only because of the first argument without unit (TypeError) or with a unit of
the wrong dimension (UnitsError). -/
theorem C67_aeff_errors (c : Consts K) (ctx : Ctx) (effectiveArea : Arg K (ND (FV K))) (trueEnergyBins fovOffsetBins : Arg K (List (FV K))) (pointLike : Bool) :
    FailsLike (createAeff2dHdu c ctx effectiveArea trueEnergyBins fovOffsetBins pointLike)
      (unitVerdict [(effectiveArea.unit, m2), (trueEnergyBins.unit, teV c), (fovOffsetBins.unit, degree c)]) := by
  intro e
  obtain ⟨u1, h1, d1, q1⟩ | ⟨e', q1, v1⟩ := quantityInput_cases effectiveArea (m2 : PhysUnit K)
  swap
  · rw [createAeff2dHdu, q1, v1]
    exact ⟨fun h => by cases h; rfl, fun h => by cases h; rfl⟩
  rw [h1, unitVerdict, if_pos d1]
  obtain ⟨u2, h2, d2, q2⟩ | ⟨e', q2, v2⟩ := quantityInput_cases trueEnergyBins (teV c : PhysUnit K)
  swap
  · rw [createAeff2dHdu, q1, q2, v2]
    exact ⟨fun h => by cases h; rfl, fun h => by cases h; rfl⟩
  rw [h2, unitVerdict, if_pos d2]
  obtain ⟨u3, h3, d3, q3⟩ | ⟨e', q3, v3⟩ := quantityInput_cases fovOffsetBins (degree c : PhysUnit K)
  swap
  · rw [createAeff2dHdu, q1, q2, q3, v3]
    exact ⟨fun h => by cases h; rfl, fun h => by cases h; rfl⟩
  rw [h3, unitVerdict, if_pos d3]
  rw [unitVerdict]
  rw [aeff_ok c ctx _ _ _ pointLike u1 u2 u3 h1 h2 h3 d1 d2 d3 ]
  constructor <;> intro h <;> cases h

/-- **C67** `create_psf_table_hdu` fails only because of the first argument without unit (TypeError) or with a unit of
the wrong dimension (UnitsError). -/
theorem C67_psf_errors (c : Consts K) (ctx : Ctx) (psf : Arg K (ND (FV K))) (trueEnergyBins sourceOffsetBins fovOffsetBins : Arg K (List (FV K))) :
    FailsLike (createPsfTableHdu c ctx psf trueEnergyBins sourceOffsetBins fovOffsetBins)
      (unitVerdict [(psf.unit, perSr), (trueEnergyBins.unit, teV c), (sourceOffsetBins.unit, degree c), (fovOffsetBins.unit, degree c)]) := by
  intro e
  obtain ⟨u1, h1, d1, q1⟩ | ⟨e', q1, v1⟩ := quantityInput_cases psf (perSr : PhysUnit K)
  swap
  · rw [createPsfTableHdu, q1, v1]
    exact ⟨fun h => by cases h; rfl, fun h => by cases h; rfl⟩
  rw [h1, unitVerdict, if_pos d1]
  obtain ⟨u2, h2, d2, q2⟩ | ⟨e', q2, v2⟩ := quantityInput_cases trueEnergyBins (teV c : PhysUnit K)
  swap
  · rw [createPsfTableHdu, q1, q2, v2]
    exact ⟨fun h => by cases h; rfl, fun h => by cases h; rfl⟩
  rw [h2, unitVerdict, if_pos d2]
  obtain ⟨u3, h3, d3, q3⟩ | ⟨e', q3, v3⟩ := quantityInput_cases sourceOffsetBins (degree c : PhysUnit K)
  swap
  · rw [createPsfTableHdu, q1, q2, q3, v3]
    exact ⟨fun h => by cases h; rfl, fun h => by cases h; rfl⟩
  rw [h3, unitVerdict, if_pos d3]
  obtain ⟨u4, h4, d4, q4⟩ | ⟨e', q4, v4⟩ := quantityInput_cases fovOffsetBins (degree c : PhysUnit K)
  swap
  · rw [createPsfTableHdu, q1, q2, q3, q4, v4]
    exact ⟨fun h => by cases h; rfl, fun h => by cases h; rfl⟩
  rw [h4, unitVerdict, if_pos d4]
  rw [unitVerdict]
  rw [psf_ok c ctx _ _ _ _ u1 u2 u3 u4 h1 h2 h3 h4 d1 d2 d3 d4 ]
  constructor <;> intro h <;> cases h

/-- **C67** `create_energy_dispersion_hdu`: as for the effective area, but the migration edges are not checked and a plain
matrix counts as dimensionless. -/
theorem C67_edisp_errors (c : Consts K) (ctx : Ctx) (energyDispersion : Arg K (ND (FV K))) (trueEnergyBins migrationBins fovOffsetBins : Arg K (List (FV K))) (pointLike : Bool) :
    FailsLike (createEnergyDispersionHdu c ctx energyDispersion trueEnergyBins migrationBins fovOffsetBins pointLike)
      (unitVerdict [(trueEnergyBins.unit, teV c), (fovOffsetBins.unit, degree c), (some (energyDispersion.unit.getD unitOne), unitOne)]) := by
  intro e
  obtain ⟨u1, h1, d1, q1⟩ | ⟨e', q1, v1⟩ := quantityInput_cases trueEnergyBins (teV c : PhysUnit K)
  swap
  · rw [createEnergyDispersionHdu, q1, v1]
    exact ⟨fun h => by cases h; rfl, fun h => by cases h; rfl⟩
  rw [h1, unitVerdict, if_pos d1]
  obtain ⟨u2, h2, d2, q2⟩ | ⟨e', q2, v2⟩ := quantityInput_cases fovOffsetBins (degree c : PhysUnit K)
  swap
  · rw [createEnergyDispersionHdu, q1, q2, v2]
    exact ⟨fun h => by cases h; rfl, fun h => by cases h; rfl⟩
  rw [h2, unitVerdict, if_pos d2]
  by_cases dd : (energyDispersion.unit.getD unitOne).dim = Dim.one
  swap
  · have hdat : toDataOne energyDispersion = .error .unitsError := by
      unfold toDataOne toData
      exact if_neg dd
    rw [createEnergyDispersionHdu, q1, q2, toEdges_ok trueEnergyBins _ u1 h1 d1, toEdges_ok fovOffsetBins _ u2 h2 d2, hdat, unitVerdict, if_neg (fun h : _ = (unitOne : PhysUnit K).dim => dd h)]
    exact ⟨fun h => by cases h; rfl, fun h => by cases h; rfl⟩
  rw [unitVerdict, if_pos (show _ = (unitOne : PhysUnit K).dim from dd)]
  rw [unitVerdict]
  rw [edisp_ok c ctx _ _ _ _ pointLike u1 u2 h1 h2 d1 d2 dd]
  constructor <;> intro h <;> cases h

/-- **C67** `create_background_2d_hdu`: the edges are checked like for the effective area, the background only by its conversion. -/
theorem C67_bkg2d_errors (c : Consts K) (ctx : Ctx) (background2d : Arg K (ND (FV K))) (recoEnergyBins fovOffsetBins : Arg K (List (FV K))) :
    FailsLike (createBackground2dHdu c ctx background2d recoEnergyBins fovOffsetBins)
      ((unitVerdict [(recoEnergyBins.unit, teV c), (fovOffsetBins.unit, degree c)]).or (convertVerdict background2d.unit (bkgUnit c))) := by
  intro e
  obtain ⟨u2, h2, d2, q2⟩ | ⟨e', q2, v2⟩ := quantityInput_cases recoEnergyBins (teV c : PhysUnit K)
  swap
  · rw [createBackground2dHdu, q2, v2]
    exact ⟨fun h => by cases h; rfl, fun h => by cases h; rfl⟩
  rw [h2, unitVerdict, if_pos d2]
  obtain ⟨u3, h3, d3, q3⟩ | ⟨e', q3, v3⟩ := quantityInput_cases fovOffsetBins (degree c : PhysUnit K)
  swap
  · rw [createBackground2dHdu, q2, q3, v3]
    exact ⟨fun h => by cases h; rfl, fun h => by cases h; rfl⟩
  rw [h3, unitVerdict, if_pos d3]
  rw [unitVerdict]
  cases h1 : background2d.unit with
  | none =>
    have hdat : toData background2d (bkgUnit c) = .error .attributeError := by simp [toData, h1]
    rw [createBackground2dHdu, q2, q3, toEdges_ok recoEnergyBins _ u2 h2 d2, toEdges_ok fovOffsetBins _ u3 h3 d3, hdat]
    exact ⟨fun h => by cases h; rfl, fun h => by cases h; rfl⟩
  | some u1 =>
  by_cases d1 : u1.dim = (bkgUnit c).dim
  swap
  · have hdat : toData background2d (bkgUnit c) = .error .unitsError := by simp [toData, h1, d1]
    rw [createBackground2dHdu, q2, q3, toEdges_ok recoEnergyBins _ u2 h2 d2, toEdges_ok fovOffsetBins _ u3 h3 d3, hdat]
    simp only [convertVerdict, if_neg d1]
    exact ⟨fun h => by cases h; rfl, fun h => by cases h; rfl⟩
  simp only [convertVerdict, if_pos d1]
  rw [bkg2d_ok c ctx _ _ _ u1 u2 u3 h1 h2 h3 d1 d2 d3 ]
  constructor <;> intro h <;> cases h

/-- **C67** `create_background_3d_hdu`: the edges are checked like for the effective area, the background only by its conversion. Every alignment
other than ALTAZ and RADEC is rejected with ValueError. -/
theorem C67_bkg3d_errors (c : Consts K) (ctx : Ctx) (background3d : Arg K (ND (FV K))) (recoEnergyBins fovLonBins fovLatBins : Arg K (List (FV K))) (alignment : String) :
    FailsLike (createBackground3dHdu c ctx background3d recoEnergyBins fovLonBins fovLatBins alignment)
      (((unitVerdict [(recoEnergyBins.unit, teV c), (fovLonBins.unit, degree c), (fovLatBins.unit, degree c)]).or (convertVerdict background3d.unit (bkgUnit c))).or (if alignment = "ALTAZ" ∨ alignment = "RADEC" then none else some .valueError)) := by
  intro e
  obtain ⟨u2, h2, d2, q2⟩ | ⟨e', q2, v2⟩ := quantityInput_cases recoEnergyBins (teV c : PhysUnit K)
  swap
  · rw [createBackground3dHdu, q2, v2]
    exact ⟨fun h => by cases h; rfl, fun h => by cases h; rfl⟩
  rw [h2, unitVerdict, if_pos d2]
  obtain ⟨u3, h3, d3, q3⟩ | ⟨e', q3, v3⟩ := quantityInput_cases fovLonBins (degree c : PhysUnit K)
  swap
  · rw [createBackground3dHdu, q2, q3, v3]
    exact ⟨fun h => by cases h; rfl, fun h => by cases h; rfl⟩
  rw [h3, unitVerdict, if_pos d3]
  obtain ⟨u4, h4, d4, q4⟩ | ⟨e', q4, v4⟩ := quantityInput_cases fovLatBins (degree c : PhysUnit K)
  swap
  · rw [createBackground3dHdu, q2, q3, q4, v4]
    exact ⟨fun h => by cases h; rfl, fun h => by cases h; rfl⟩
  rw [h4, unitVerdict, if_pos d4]
  rw [unitVerdict]
  cases h1 : background3d.unit with
  | none =>
    have hdat : toData background3d (bkgUnit c) = .error .attributeError := by simp [toData, h1]
    rw [createBackground3dHdu, q2, q3, q4, toEdges_ok recoEnergyBins _ u2 h2 d2, toEdges_ok fovLonBins _ u3 h3 d3, toEdges_ok fovLatBins _ u4 h4 d4, hdat]
    exact ⟨fun h => by cases h; rfl, fun h => by cases h; rfl⟩
  | some u1 =>
  by_cases d1 : u1.dim = (bkgUnit c).dim
  swap
  · have hdat : toData background3d (bkgUnit c) = .error .unitsError := by simp [toData, h1, d1]
    rw [createBackground3dHdu, q2, q3, q4, toEdges_ok recoEnergyBins _ u2 h2 d2, toEdges_ok fovLonBins _ u3 h3 d3, toEdges_ok fovLatBins _ u4 h4 d4, hdat]
    simp only [convertVerdict, if_neg d1]
    exact ⟨fun h => by cases h; rfl, fun h => by cases h; rfl⟩
  simp only [convertVerdict, if_pos d1]
  by_cases hal' : alignment = "ALTAZ" ∨ alignment = "RADEC"
  swap
  · have hal : alignment ∉ ["ALTAZ", "RADEC"] := by simpa using hal'
    rw [createBackground3dHdu, q2, q3, q4, toEdges_ok recoEnergyBins _ u2 h2 d2, toEdges_ok fovLonBins _ u3 h3 d3, toEdges_ok fovLatBins _ u4 h4 d4, toData_ok background3d _ u1 h1 d1]
    simp only [if_neg hal, if_neg hal']
    exact ⟨fun h => by cases h; rfl, fun h => by cases h; rfl⟩
  have hal : alignment ∈ ["ALTAZ", "RADEC"] := by simpa using hal'
  simp only [if_pos hal']
  rw [bkg3d_ok c ctx _ _ _ _ alignment u1 u2 u3 u4 h1 h2 h3 h4 d1 d2 d3 d4 hal]
  constructor <;> intro h <;> cases h

/-- **C67** `create_rad_max_hdu` fails only because of the first argument without unit (TypeError) or with a unit of
the wrong dimension (UnitsError). -/
theorem C67_radmax_errors (c : Consts K) (ctx : Ctx) (radMax : Arg K (ND (FV K))) (recoEnergyBins fovOffsetBins : Arg K (List (FV K))) (pointLike : Bool) :
    FailsLike (createRadMaxHdu c ctx radMax recoEnergyBins fovOffsetBins pointLike)
      (unitVerdict [(radMax.unit, degree c), (recoEnergyBins.unit, teV c), (fovOffsetBins.unit, degree c)]) := by
  intro e
  obtain ⟨u1, h1, d1, q1⟩ | ⟨e', q1, v1⟩ := quantityInput_cases radMax (degree c : PhysUnit K)
  swap
  · rw [createRadMaxHdu, q1, v1]
    exact ⟨fun h => by cases h; rfl, fun h => by cases h; rfl⟩
  rw [h1, unitVerdict, if_pos d1]
  obtain ⟨u2, h2, d2, q2⟩ | ⟨e', q2, v2⟩ := quantityInput_cases recoEnergyBins (teV c : PhysUnit K)
  swap
  · rw [createRadMaxHdu, q1, q2, v2]
    exact ⟨fun h => by cases h; rfl, fun h => by cases h; rfl⟩
  rw [h2, unitVerdict, if_pos d2]
  obtain ⟨u3, h3, d3, q3⟩ | ⟨e', q3, v3⟩ := quantityInput_cases fovOffsetBins (degree c : PhysUnit K)
  swap
  · rw [createRadMaxHdu, q1, q2, q3, v3]
    exact ⟨fun h => by cases h; rfl, fun h => by cases h; rfl⟩
  rw [h3, unitVerdict, if_pos d3]
  rw [unitVerdict]
  rw [radmax_ok c ctx _ _ _ pointLike u1 u2 u3 h1 h2 h3 d1 d2 d3 ]
  constructor <;> intro h <;> cases h

/-! ## C105: rad_max ignores point_like -/

/-- The rule of GADF: HDUCLAS3 says POINT-LIKE for a point-like IRF, FULL-ENCLOSURE otherwise. -/
def clas3 (pointLike : Bool) : HVal := .str (if pointLike then "POINT-LIKE" else "FULL-ENCLOSURE")

/-- **C105** Without an HDUCLAS3 card from the user, the RAD_MAX HDU always says POINT-LIKE, so it follows the rule exactly if `point_like=True`; the effective
area and energy dispersion HDUs follow it for both values. -/
theorem C105_clas3 (c : Consts K) (hE : 0 < c.eV) (hD : 0 < c.deg) (ctx : Ctx) (hcards : lastCard ctx.cards "HDUCLAS3" = none)
    (x : Arg K (ND (FV K))) (eb mb fb : Arg K (List (FV K))) (pointLike : Bool) (h : Hdu K) :
    (createRadMaxHdu c ctx x eb fb pointLike = .ok h →
      h.header.get? "HDUCLAS3" = some (.str "POINT-LIKE") ∧ (h.header.get? "HDUCLAS3" = some (clas3 pointLike) ↔ pointLike = true)) ∧
    (createAeff2dHdu c ctx x eb fb pointLike = .ok h → h.header.get? "HDUCLAS3" = some (clas3 pointLike)) ∧
    (createEnergyDispersionHdu c ctx x eb mb fb pointLike = .ok h → h.header.get? "HDUCLAS3" = some (clas3 pointLike)) := by
  refine ⟨fun hok => ?_, fun hok => ?_, fun hok => ?_⟩
  · have hh := (C67_radmax c hE hD ctx x eb fb pointLike h hok).2.2.2.2.1 "HDUCLAS3" (by decide)
    rw [if_neg (by simp), hcards] at hh
    have : h.header.get? "HDUCLAS3" = some (.str "POINT-LIKE") := hh
    refine ⟨this, ?_⟩
    rw [this]
    cases pointLike <;> decide
  · have hh := (C67_aeff c hE hD ctx x eb fb pointLike h hok).2.2.2.2.1 "HDUCLAS3" (by decide)
    rw [if_neg (by simp), hcards] at hh
    exact hh
  · have hh := (C67_edisp c hE hD ctx x eb mb fb pointLike h hok).2.2.2.2.2.1 "HDUCLAS3" (by decide)
    rw [if_neg (by simp), hcards] at hh
    exact hh

/-- **C105** For a user card named HDUCLAS3, the last such card counts, for both values of `point_like`. -/
theorem C105_user_card (c : Consts K) (hE : 0 < c.eV) (hD : 0 < c.deg) (ctx : Ctx) (v : HVal) (hcards : lastCard ctx.cards "HDUCLAS3" = some v)
    (x : Arg K (ND (FV K))) (eb fb : Arg K (List (FV K))) (pointLike : Bool) (h : Hdu K) (hok : createRadMaxHdu c ctx x eb fb pointLike = .ok h) :
    h.header.get? "HDUCLAS3" = some v := by
  have hh := (C67_radmax c hE hD ctx x eb fb pointLike h hok).2.2.2.2.1 "HDUCLAS3" (by decide)
  rw [if_neg (by simp), hcards] at hh
  exact hh

/-! ## C106: arrays without units -/

/-- **C106** What the writers do with an array without unit, for all edges: effective area, PSF and RAD_MAX raise TypeError; the energy dispersion is taken as
dimensionless; the background writers first report the edges without unit or of another dimension, and else raise AttributeError. -/
theorem C106_no_unit (c : Consts K) (ctx : Ctx) (a : ND (FV K)) (eb xb yb : Arg K (List (FV K))) (pointLike : Bool) (alignment : String) :
    createAeff2dHdu c ctx ⟨none, a⟩ eb xb pointLike = .error .typeError ∧
    createPsfTableHdu c ctx ⟨none, a⟩ eb xb yb = .error .typeError ∧
    createRadMaxHdu c ctx ⟨none, a⟩ eb xb pointLike = .error .typeError ∧
    createEnergyDispersionHdu c ctx ⟨none, a⟩ eb xb yb pointLike = createEnergyDispersionHdu c ctx ⟨some unitOne, a⟩ eb xb yb pointLike ∧
    createBackground2dHdu c ctx ⟨none, a⟩ eb xb = .error ((unitVerdict [(eb.unit, teV c), (xb.unit, degree c)]).getD .attributeError) ∧
    createBackground3dHdu c ctx ⟨none, a⟩ eb xb yb alignment =
      .error ((unitVerdict [(eb.unit, teV c), (xb.unit, degree c), (yb.unit, degree c)]).getD .attributeError) := by
  refine ⟨rfl, rfl, rfl, rfl, ?_, ?_⟩
  · refine (C67_bkg2d_errors c ctx _ _ _ _).mpr ?_
    cases unitVerdict [(eb.unit, teV c), (xb.unit, degree c)] <;> simp [convertVerdict]
  · refine (C67_bkg3d_errors c ctx _ _ _ _ _ _).mpr ?_
    cases unitVerdict [(eb.unit, teV c), (xb.unit, degree c), (yb.unit, degree c)] <;> simp [convertVerdict]

/-- **C106** (deviation) A plain background array with good edges gives AttributeError, not the TypeError of the other writers. -/
theorem C106_background_attribute_error (c : Consts K) (ctx : Ctx) (a : ND (FV K)) (eb xb yb : Arg K (List (FV K))) (alignment : String)
    (he : HasDim eb (teV c)) (hx : HasDim xb (degree c)) (hy : HasDim yb (degree c)) :
    createBackground2dHdu c ctx ⟨none, a⟩ eb xb = .error .attributeError ∧
    createBackground3dHdu c ctx ⟨none, a⟩ eb xb yb alignment = .error .attributeError := by
  obtain ⟨u1, h1, d1⟩ := he
  obtain ⟨u2, h2, d2⟩ := hx
  obtain ⟨u3, h3, d3⟩ := hy
  obtain ⟨-, -, -, -, e1, e2⟩ := C106_no_unit c ctx a eb xb yb true alignment
  rw [e1, e2]
  simp [h1, h2, h3, d1, d2, d3, unitVerdict]

/-- **C106** A background of another dimension with good edges gives UnitsError. -/
theorem C106_background_units (c : Consts K) (ctx : Ctx) (a : ND (FV K)) (un : PhysUnit K) (hun : un.dim ≠ (bkgUnit c).dim)
    (eb xb yb : Arg K (List (FV K))) (alignment : String) :
    (HasDim eb (teV c) → HasDim xb (degree c) → createBackground2dHdu c ctx ⟨some un, a⟩ eb xb = .error .unitsError) ∧
    (HasDim eb (teV c) → HasDim xb (degree c) → HasDim yb (degree c) →
      createBackground3dHdu c ctx ⟨some un, a⟩ eb xb yb alignment = .error .unitsError) := by
  refine ⟨?_, ?_⟩
  · rintro ⟨u1, h1, d1⟩ ⟨u2, h2, d2⟩
    refine (C67_bkg2d_errors c ctx _ _ _ _).mpr ?_
    simp [h1, h2, d1, d2, unitVerdict, convertVerdict, hun]
  · rintro ⟨u1, h1, d1⟩ ⟨u2, h2, d2⟩ ⟨u3, h3, d3⟩
    refine (C67_bkg3d_errors c ctx _ _ _ _ _ _).mpr ?_
    simp [h1, h2, h3, d1, d2, d3, unitVerdict, convertVerdict, hun]

/-! ## C107: shapes are not checked -/

theorem accepted_iff {r : Except Err (Hdu K)} {v : Option Err} (h : FailsLike r v) : (∃ x, r = .ok x) ↔ v = none := by
  cases r with
  | ok x =>
    cases v with
    | none => exact ⟨fun _ => rfl, fun _ => ⟨x, rfl⟩⟩
    | some e => exact absurd ((h e).mpr rfl) (by intro hh; cases hh)
  | error e =>
    have := (h e).mp rfl
    rw [this]
    exact ⟨(by rintro ⟨x, hx⟩; cases hx), fun hh => (by cases hh)⟩

/-- **C107** Whether a writer accepts its arguments does not depend on the shape or contents of the array: with another array of the same unit it does the same. -/
theorem C107_shape_not_checked (c : Consts K) (ctx : Ctx) (u : Option (PhysUnit K)) (a a' : ND (FV K)) (eb xb yb : Arg K (List (FV K))) (pointLike : Bool)
    (alignment : String) :
    ((∃ h, createAeff2dHdu c ctx ⟨u, a⟩ eb xb pointLike = .ok h) ↔ ∃ h, createAeff2dHdu c ctx ⟨u, a'⟩ eb xb pointLike = .ok h) ∧
    ((∃ h, createPsfTableHdu c ctx ⟨u, a⟩ eb xb yb = .ok h) ↔ ∃ h, createPsfTableHdu c ctx ⟨u, a'⟩ eb xb yb = .ok h) ∧
    ((∃ h, createEnergyDispersionHdu c ctx ⟨u, a⟩ eb xb yb pointLike = .ok h) ↔ ∃ h, createEnergyDispersionHdu c ctx ⟨u, a'⟩ eb xb yb pointLike = .ok h) ∧
    ((∃ h, createBackground2dHdu c ctx ⟨u, a⟩ eb xb = .ok h) ↔ ∃ h, createBackground2dHdu c ctx ⟨u, a'⟩ eb xb = .ok h) ∧
    ((∃ h, createBackground3dHdu c ctx ⟨u, a⟩ eb xb yb alignment = .ok h) ↔ ∃ h, createBackground3dHdu c ctx ⟨u, a'⟩ eb xb yb alignment = .ok h) ∧
    ((∃ h, createRadMaxHdu c ctx ⟨u, a⟩ eb xb pointLike = .ok h) ↔ ∃ h, createRadMaxHdu c ctx ⟨u, a'⟩ eb xb pointLike = .ok h) := by
  refine ⟨?_, ?_, ?_, ?_, ?_, ?_⟩
  · rw [accepted_iff (C67_aeff_errors c ctx _ _ _ _), accepted_iff (C67_aeff_errors c ctx _ _ _ _)]
  · rw [accepted_iff (C67_psf_errors c ctx _ _ _ _), accepted_iff (C67_psf_errors c ctx _ _ _ _)]
  · rw [accepted_iff (C67_edisp_errors c ctx _ _ _ _ _), accepted_iff (C67_edisp_errors c ctx _ _ _ _ _)]
  · rw [accepted_iff (C67_bkg2d_errors c ctx _ _ _), accepted_iff (C67_bkg2d_errors c ctx _ _ _)]
  · rw [accepted_iff (C67_bkg3d_errors c ctx _ _ _ _ _), accepted_iff (C67_bkg3d_errors c ctx _ _ _ _ _)]
  · rw [accepted_iff (C67_radmax_errors c ctx _ _ _ _), accepted_iff (C67_radmax_errors c ctx _ _ _ _)]

/-- the dimensions of the array column are the lengths of the columns with the lower edges of the axes -/
def DimsMatch (h : Hdu K) (data : String) (axes : List String) : Prop :=
  ∃ col, h.column? data = some col ∧ col.dims = (axes.map fun a => ((h.column? (a ++ "_LO")).map Column.dims).getD []).flatten

theorem dimsMatch_iff2 {h : Hdu K} {n1 n2 d : String} {u1 u2 : Option (PhysUnit K)} {u : PhysUnit K} {b1 b2 : Arg K (List (FV K))} {x : Arg K (ND (FV K))}
    (h1 : StoresAxis h n1 u1 b1) (h2 : StoresAxis h n2 u2 b2) (hd : StoresData h d u x) :
    DimsMatch h d [n1, n2] ↔ x.data.shape = [b1.data.length - 1, b2.data.length - 1] := by
  obtain ⟨lo1, _, e1, _, _, _, d1, _⟩ := h1
  obtain ⟨lo2, _, e2, _, _, _, d2, _⟩ := h2
  obtain ⟨col, hcol, _, hdc, _⟩ := hd
  unfold DimsMatch
  simp only [List.map_cons, List.map_nil, e1, e2, Option.map_some, Option.getD_some, d1, d2, List.flatten_cons, List.flatten_nil, List.append_nil, List.cons_append,
    List.nil_append]
  rw [hcol]
  constructor
  · rintro ⟨_, hc, hh⟩
    cases hc
    rw [← hdc]; exact hh
  · intro hh
    exact ⟨col, rfl, by rw [hdc]; exact hh⟩

theorem dimsMatch_iff3 {h : Hdu K} {n1 n2 n3 d : String} {u1 u2 u3 : Option (PhysUnit K)} {u : PhysUnit K} {b1 b2 b3 : Arg K (List (FV K))} {x : Arg K (ND (FV K))}
    (h1 : StoresAxis h n1 u1 b1) (h2 : StoresAxis h n2 u2 b2) (h3 : StoresAxis h n3 u3 b3) (hd : StoresData h d u x) :
    DimsMatch h d [n1, n2, n3] ↔ x.data.shape = [b1.data.length - 1, b2.data.length - 1, b3.data.length - 1] := by
  obtain ⟨lo1, _, e1, _, _, _, d1, _⟩ := h1
  obtain ⟨lo2, _, e2, _, _, _, d2, _⟩ := h2
  obtain ⟨lo3, _, e3, _, _, _, d3, _⟩ := h3
  obtain ⟨col, hcol, _, hdc, _⟩ := hd
  unfold DimsMatch
  simp only [List.map_cons, List.map_nil, e1, e2, e3, Option.map_some, Option.getD_some, d1, d2, d3, List.flatten_cons, List.flatten_nil, List.append_nil, List.cons_append,
    List.nil_append]
  rw [hcol]
  constructor
  · rintro ⟨_, hc, hh⟩
    cases hc
    rw [← hdc]; exact hh
  · intro hh
    exact ⟨col, rfl, by rw [hdc]; exact hh⟩

/-- **C107** In the HDU the dimensions of the array agree with the axis columns exactly if the array has the documented shape. -/
theorem C107_shape_iff (c : Consts K) (hE : 0 < c.eV) (hD : 0 < c.deg) (ctx : Ctx) (x : Arg K (ND (FV K))) (eb xb yb : Arg K (List (FV K))) (pointLike : Bool)
    (alignment : String) (h : Hdu K) :
    (createAeff2dHdu c ctx x eb xb pointLike = .ok h → (DimsMatch h "EFFAREA" ["ENERG", "THETA"] ↔ x.data.shape = [eb.data.length - 1, xb.data.length - 1])) ∧
    (createPsfTableHdu c ctx x eb xb yb = .ok h →
      (DimsMatch h "RPSF" ["ENERG", "THETA", "RAD"] ↔ x.data.shape = [eb.data.length - 1, yb.data.length - 1, xb.data.length - 1])) ∧
    (createEnergyDispersionHdu c ctx x eb xb yb pointLike = .ok h →
      (DimsMatch h "MATRIX" ["ENERG", "MIGRA", "THETA"] ↔ x.data.shape = [eb.data.length - 1, xb.data.length - 1, yb.data.length - 1])) ∧
    (createBackground2dHdu c ctx x eb xb = .ok h → (DimsMatch h "BKG" ["ENERG", "THETA"] ↔ x.data.shape = [eb.data.length - 1, xb.data.length - 1])) ∧
    (createBackground3dHdu c ctx x eb xb yb alignment = .ok h →
      (DimsMatch h "BKG" ["ENERG", "DETX", "DETY"] ↔ x.data.shape = [eb.data.length - 1, xb.data.length - 1, yb.data.length - 1])) ∧
    (createRadMaxHdu c ctx x eb xb pointLike = .ok h → (DimsMatch h "RAD_MAX" ["ENERG", "THETA"] ↔ x.data.shape = [eb.data.length - 1, xb.data.length - 1])) := by
  refine ⟨fun hok => ?_, fun hok => ?_, fun hok => ?_, fun hok => ?_, fun hok => ?_, fun hok => ?_⟩
  · obtain ⟨_, h1, h2, h3, _⟩ := C67_aeff c hE hD ctx _ _ _ _ _ hok
    exact dimsMatch_iff2 h1 h2 h3
  · obtain ⟨_, h1, h2, h3, h4, _⟩ := C67_psf c hE hD ctx _ _ _ _ _ hok
    exact dimsMatch_iff3 h1 h2 h3 h4
  · obtain ⟨_, h1, h2, h3, h4, _⟩ := C67_edisp c hE hD ctx _ _ _ _ _ _ hok
    exact dimsMatch_iff3 h1 h2 h3 h4
  · obtain ⟨_, h1, h2, h3, _⟩ := C67_bkg2d c hE hD ctx _ _ _ _ hok
    exact dimsMatch_iff2 h1 h2 h3
  · obtain ⟨_, h1, h2, h3, h4, _⟩ := C67_bkg3d c hE hD ctx _ _ _ _ _ _ hok
    exact dimsMatch_iff3 h1 h2 h3 h4
  · obtain ⟨_, h1, h2, h3, _⟩ := C67_radmax c hE hD ctx _ _ _ _ _ hok
    exact dimsMatch_iff2 h1 h2 h3

/-- **C107** (deviation) So an array of any other shape is written with edges of suitable units, and contradicts the axis columns. -/
theorem C107_wrong_shape_written (c : Consts K) (hE : 0 < c.eV) (hD : 0 < c.deg) (ctx : Ctx) (x : Arg K (ND (FV K))) (eb fb : Arg K (List (FV K)))
    (pointLike : Bool) (hx : HasDim x (m2 : PhysUnit K)) (he : HasDim eb (teV c)) (hf : HasDim fb (degree c))
    (hne : x.data.shape ≠ [eb.data.length - 1, fb.data.length - 1]) :
    ∃ h, createAeff2dHdu c ctx x eb fb pointLike = .ok h ∧ ¬ DimsMatch h "EFFAREA" ["ENERG", "THETA"] := by
  obtain ⟨u1, h1, d1⟩ := hx
  obtain ⟨u2, h2, d2⟩ := he
  obtain ⟨u3, h3, d3⟩ := hf
  have hok := aeff_ok c ctx x eb fb pointLike u1 u2 u3 h1 h2 h3 d1 d2 d3
  refine ⟨_, hok, fun hd => hne ?_⟩
  exact ((C107_shape_iff c hE hD ctx x eb fb fb pointLike "" _).1 hok).mp hd

end cols

/-! ## Satisfiability -/

/-- constants for the examples -/
def exConsts : Consts ℚ := ⟨1602176634 / 10 ^ 28, 17453292519943295 / 10 ^ 18⟩
/-- a context with a user card that overrides a default -/
def exCtx : Ctx := ⟨"0.8.0", "2021-01-01 00:00:00.000", "aeff", [("telescop", .str "CTA"), ("hduvers", .str "0.3")]⟩
/-- an effective area of shape (2, 1) in m² with values 10, 20 -/
def exArea : Arg ℚ (ND (FV ℚ)) := ⟨some m2, ⟨[2, 1], fun idx => .fin (10 * (idx.getD 0 0 + 1))⟩⟩
/-- energy edges 1, 10, 100 TeV -/
def exEnergy : Arg ℚ (List (FV ℚ)) := ⟨some (teV exConsts), [.fin 1, .fin 10, .fin 100]⟩
/-- offset edges 0, 1 degree -/
def exOffset : Arg ℚ (List (FV ℚ)) := ⟨some (degree exConsts), [.fin 0, .fin 1]⟩

/-- the call succeeds, the override counts, the name is upper case, and the shape is the documented one -/
example : ∃ h, createAeff2dHdu exConsts exCtx exArea exEnergy exOffset true = .ok h ∧
    h.header.get? "TELESCOP" = some (.str "CTA") ∧ h.header.get? "HDUVERS" = some (.str "0.3") ∧
    h.header.get? "HDUCLAS3" = some (.str "POINT-LIKE") ∧ h.header.get? "EXTNAME" = some (.str "AEFF") ∧
    h.header.get? "CREF5" = some (.str "(ENERG_LO:ENERG_HI,THETA_LO:THETA_HI)") ∧ lastCard exCtx.cards "HDUCLAS3" = none ∧
    exArea.data.shape = [exEnergy.data.length - 1, exOffset.data.length - 1] := by
  refine ⟨_, aeff_ok exConsts exCtx exArea exEnergy exOffset true m2 (teV exConsts) (degree exConsts) rfl rfl rfl rfl rfl rfl, ?_, ?_, ?_, ?_, ?_, ?_, ?_⟩ <;>
    rfl

example : 0 < exConsts.eV ∧ 0 < exConsts.deg ∧ 0 < scaleOf exEnergy.unit := by
  simp only [exConsts, scaleOf, exEnergy, teV]; norm_num

end Pyirf.Io
