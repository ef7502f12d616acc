import Verif.Binning.ResampleNdModel
import Verif.Binning.ResampleProps

/-!
# C148: `resample_histogram1d` along an axis, with units
-/
set_option linter.unusedSectionVars false

namespace Pyirf.Binning
open Pyirf Pyirf.Np Pyirf.Io

variable {K : Type*} [Field K] [LinearOrder K] [IsStrictOrderedRing K]

/-! ## Specification -/

/-- the entries of an array along the axis `k` through the entry `idx` -/
def lineOf {α : Type*} (a : ND α) (k : ℕ) (idx : List ℕ) (n : ℕ) : Fin n → α := fun i => a.get (idx.set k i.val)

/-- `r` is the array `a` with every line along the axis `k` replaced by `f` of that line. -/
def LineWise {n m : ℕ} (f : (Fin n → K) → Fin m → K) (a : ND K) (k : ℕ) (r : ND K) : Prop :=
  r.shape = a.shape.set k m ∧ ∀ idx (_ : ND.Valid r.shape idx) (h : idx.getD k 0 < m), r.get idx = f (lineOf a k idx n) ⟨idx.getD k 0, h⟩

/-- The numbers in `data`, if they are floats. -/
def HistData.floatArray : HistData K → Option (ND K)
  | .floats a => some a
  | .quantity a _ => some a
  | .ints _ => none

/-- The shape of `data`. -/
def HistData.shape : HistData K → List ℕ
  | .floats a => a.shape
  | .quantity a _ => a.shape
  | .ints a => a.shape

/-- The unit of `data`. -/
def HistData.unit : HistData K → Option (PhysUnit K)
  | .quantity _ u => some u
  | _ => none

/-! ## Lemmas -/

theorem set_set_getD {l : List ℕ} {k i j : ℕ} (hk : k < l.length) : ((l.set k i).getD k 0 = i) ∧ (l.set k i).set k j = l.set k j := by
  refine ⟨?_, List.set_set ..⟩
  rw [List.getD_eq_getElem?_getD, List.getElem?_set_self hk]; rfl

theorem cumsum0_eq_range {n : ℕ} (g : ℕ → K) (i : Fin (n + 1)) : cumsum0 (fun j : Fin n => g j.val) i = ∑ j ∈ Finset.range i.val, g j := by
  unfold cumsum0
  rw [Fin.sum_univ_eq_sum_range (fun j => if j < i.val then g j else 0) n, ← Finset.sum_filter]
  congr 1
  ext j
  simp only [Finset.mem_filter, Finset.mem_range]
  omega

theorem insert_cumsum_get (a : ND K) {k : ℕ} {idx : List ℕ} (hk : k < idx.length) (j : ℕ) :
    ((a.cumsum k).insertZero k).get (idx.set k j) = ∑ i ∈ Finset.range j, a.get (idx.set k i) := by
  show (if (idx.set k j).getD k 0 = 0 then 0 else (a.cumsum k).get ((idx.set k j).set k ((idx.set k j).getD k 0 - 1))) = _
  rw [(set_set_getD (j := 0) hk).1]
  by_cases h : j = 0
  · subst h; simp
  · rw [if_neg h, List.set_set]
    show ∑ i ∈ Finset.range ((idx.set k (j - 1)).getD k 0 + 1), a.get ((idx.set k (j - 1)).set k i) = _
    rw [(set_set_getD (j := 0) hk).1, Nat.sub_add_cancel (Nat.one_le_iff_ne_zero.2 h)]
    refine Finset.sum_congr rfl fun i _ => ?_
    rw [List.set_set]

/-- The numerical part acts on every line along the axis like the model for one line. -/
theorem resampleAxis_lines {n m : ℕ} (spline : (Fin (n + 2) → K) → (Fin (n + 2) → K) → K → K) (data : ND K) (old : Fin (n + 2) → K) (new : Fin (m + 1) → K)
    {k : ℕ} (hk : k < data.shape.length) :
    (n ≠ 0 → data.shape.getD k 0 = n + 1 → ∃ r, resampleAxis spline data old new k = .ok r ∧
      LineWise (fun line : Fin (n + 1) → K => fun j : Fin m =>
        let norm := if ∑ j, line j = 0 then 1 else ∑ j, line j
        let f := interpFill spline old (fun i => cumsum0 line i / norm)
        (f (new j.succ) - f (new j.castSucc)) * norm) data k r) ∧
    (¬ (n ≠ 0 ∧ data.shape.getD k 0 = n + 1) → resampleAxis spline data old new k = .error .valueError) := by
  set cum := (data.cumsum k).insertZero k with hcum
  set norm0 := data.sumKeep k with hnorm0
  set norm : ND K := ⟨norm0.shape, fun idx => if norm0.get idx = 0 then 1 else norm0.get idx⟩ with hnorm
  have hcs : cum.shape = data.shape.set k (data.shape.getD k 0 + 1) := rfl
  have hns : norm.shape = cum.shape.set k 1 := by rw [hcs, List.set_set]; rfl
  have hkc : k < cum.shape.length := by rw [hcs, List.length_set]; exact hk
  obtain ⟨c, hc, hcsh, hcget⟩ := ND.zip_keep (· / ·) cum norm hkc hns
  have hrw : resampleAxis spline data old new k = match interpAxis spline old c k new with
    | .error e => .error e
    | .ok f => ND.zip (· * ·) (f.diff k) norm := by
    unfold resampleAxis
    simp only [← hcum, ← hnorm0, ← hnorm, hc]
    generalize interpAxis spline old c k new = q
    cases q <;> rfl
  have hlen : c.shape.getD k 0 = data.shape.getD k 0 + 1 := by rw [hcsh, hcs, (set_set_getD (j := 0) hk).1]
  constructor
  · intro hn hd
    have hi : interpAxis spline old c k new = .ok ⟨c.shape.set k (m + 1), fun idx =>
        if h : idx.getD k 0 < m + 1 then interpFill spline old (fun i => c.get (idx.set k i.val)) (new ⟨_, h⟩) else 0⟩ := by
      unfold interpAxis
      rw [if_neg (by rw [hlen, hd]; simp), if_neg (by omega)]
    rw [hi] at hrw
    simp only [] at hrw
    set F : ND K := ⟨c.shape.set k (m + 1), fun idx =>
        if h : idx.getD k 0 < m + 1 then interpFill spline old (fun i => c.get (idx.set k i.val)) (new ⟨_, h⟩) else 0⟩ with hF
    have hFs : (F.diff k).shape = data.shape.set k m := by
      show (c.shape.set k (m + 1)).set k ((c.shape.set k (m + 1)).getD k 0 - 1) = _
      rw [(set_set_getD (j := 0) (by rw [hcsh]; exact hkc)).1, hcsh, hcs, List.set_set, List.set_set]
      rfl
    obtain ⟨r, hr, hrs, hrget⟩ := ND.zip_keep (· * ·) (F.diff k) norm (k := k) (by rw [hFs, List.length_set]; exact hk)
      (by rw [hFs, hns, hcs, List.set_set, List.set_set])
    refine ⟨r, hrw.trans hr, hrs.trans hFs, ?_⟩
    intro idx hv hj
    rw [hrs] at hv
    have hil : idx.length = data.shape.length := by rw [ND.valid_length hv, hFs, List.length_set]
    have hki : k < idx.length := by omega
    rw [hrget idx hv]
    -- the normalization
    have hsum : ∑ j : Fin (n + 1), lineOf data k idx (n + 1) j = norm0.get (idx.set k 0) := by
      show ∑ j : Fin (n + 1), data.get (idx.set k j.val) = ∑ j ∈ Finset.range (data.shape.getD k 0), data.get ((idx.set k 0).set k j)
      rw [hd, Fin.sum_univ_eq_sum_range (fun j => data.get (idx.set k j)) (n + 1)]
      refine Finset.sum_congr rfl fun i _ => ?_
      rw [List.set_set]
    have hnget : norm.get (idx.set k 0) = if ∑ j : Fin (n + 1), lineOf data k idx (n + 1) j = 0 then 1 else ∑ j : Fin (n + 1), lineOf data k idx (n + 1) j := by
      rw [hsum]
    -- the nodes
    have hvd : ∀ i : ℕ, i < n + 2 → ND.Valid cum.shape (idx.set k i) := by
      intro i hi
      have := ND.valid_set (k := k) (n := n + 2) (i := i) hv hi
      rw [hFs, List.set_set] at this
      rw [hcs, hd]
      exact this
    have hnode : ∀ (i : Fin (n + 2)), c.get (idx.set k i.val) = cumsum0 (lineOf data k idx (n + 1)) i /
        (if ∑ j : Fin (n + 1), lineOf data k idx (n + 1) j = 0 then 1 else ∑ j : Fin (n + 1), lineOf data k idx (n + 1) j) := by
      intro i
      rw [hcget _ (hvd i.val i.isLt), List.set_set, hnget]
      show _ / _ = _
      congr 1
      rw [hcum, insert_cumsum_get data hki]
      exact (cumsum0_eq_range (fun j => data.get (idx.set k j)) i).symm
    have hval : ∀ (j : ℕ) (h : j < m + 1), F.get (idx.set k j) = interpFill spline old (fun i => cumsum0 (lineOf data k idx (n + 1)) i /
        (if ∑ j : Fin (n + 1), lineOf data k idx (n + 1) j = 0 then 1 else ∑ j : Fin (n + 1), lineOf data k idx (n + 1) j)) (new ⟨j, h⟩) := by
      intro j h
      have hg : (idx.set k j).getD k 0 = j := (set_set_getD (j := 0) hki).1
      rw [hF]
      simp only [hg, List.set_set]
      rw [dif_pos h]
      congr 1
      funext i
      exact hnode i
    rw [hnget]
    show (F.get (idx.set k (idx.getD k 0 + 1)) - F.get (idx.set k (idx.getD k 0))) * _ = _
    rw [hval _ (by omega), hval _ (by omega)]
    rfl
  · intro h
    rw [hrw]
    have : interpAxis spline old c k new = .error .valueError := by
      unfold interpAxis
      by_cases hd : data.shape.getD k 0 = n + 1
      · have hn : n = 0 := by
          by_contra hn; exact h ⟨hn, hd⟩
        rw [if_neg (by rw [hlen, hd]; simp), if_pos (by omega)]
      · rw [if_pos (by rw [hlen]; omega)]
    rw [this]

theorem finVal_mul (c : K) (hc : 0 < c) (v : FV K) : finVal (FV.fin c * v) = c * finVal v := by
  cases v with
  | fin x => rfl
  | nan => simp [finVal, show (FV.fin c * FV.nan : FV K) = FV.nan from rfl]
  | pinf => rw [show (FV.fin c * FV.pinf : FV K) = FV.infSign c from rfl, FV.infSign_pos hc]; simp [finVal]
  | ninf =>
    rw [show (FV.fin c * FV.ninf : FV K) = FV.infSign (-c) from rfl]
    have : (FV.infSign (-c) : FV K) = FV.ninf := by
      have h : -c < 0 := neg_neg_of_pos hc
      simp [FV.infSign, h.not_gt, h, hc, hc.ne', hc.not_gt]
    rw [this]; simp [finVal]

theorem mul_fin_pos (c : K) (hc : 0 < c) : (FV.fin c * FV.pinf : FV K) = FV.pinf ∧ (FV.fin c * FV.ninf : FV K) = FV.ninf ∧ (FV.fin c * FV.nan : FV K) = FV.nan := by
  refine ⟨?_, ?_, rfl⟩
  · rw [show (FV.fin c * FV.pinf : FV K) = FV.infSign c from rfl, FV.infSign_pos hc]
  · rw [show (FV.fin c * FV.ninf : FV K) = FV.infSign (-c) from rfl]
    simp [FV.infSign, hc.ne', hc.le]

theorem mul_add_fin (c : K) (hc : 0 < c) (a b : FV K) : (FV.fin c * (a + b) : FV K) = FV.fin c * a + FV.fin c * b := by
  obtain ⟨h1, h2, h3⟩ := mul_fin_pos c hc
  cases a <;> cases b <;>
    first
      | (show FV.fin (c * (_ + _)) = FV.fin (c * _ + c * _); rw [mul_add])
      | (simp only [h1, h2, h3]; first | rfl | exact h1 | exact h2)

theorem mul_sub_fin (c : K) (hc : 0 < c) (a b : FV K) : (FV.fin c * (a - b) : FV K) = FV.fin c * a - FV.fin c * b := by
  have e : ∀ x y : FV K, x - y = x + -y := fun _ _ => rfl
  have hn : (FV.fin c * -b : FV K) = -(FV.fin c * b) := by
    obtain ⟨h1, h2, h3⟩ := mul_fin_pos c hc
    cases b with
    | fin x => show FV.fin (c * -x) = FV.fin (-(c * x)); rw [mul_neg]
    | nan => rfl
    | pinf => rw [h1]; exact h2
    | ninf => rw [h2]; exact h1
  rw [e, e, mul_add_fin c hc, hn]

/-- Replacing the infinite edges and converting the unit can be exchanged. -/
theorem fixOldEdges_scale {n : ℕ} (c : K) (hc : 0 < c) (old : Fin (n + 2) → FV K) (i : Fin (n + 2)) :
    fixOldEdges (fun i => FV.fin c * old i) i = c * fixOldEdges old i := by
  obtain ⟨h1, h2, h3⟩ := mul_fin_pos c hc
  unfold fixOldEdges
  simp only [← mul_sub_fin c hc, ← mul_add_fin c hc]
  rw [← finVal_mul c hc]
  congr 1
  cases old i with
  | fin x => rfl
  | nan => rw [h3]; show FV.fin 0 = FV.fin (c * 0); rw [mul_zero]
  | pinf => rw [h1]; rfl
  | ninf => rw [h2]; rfl

/-! ## C148 -/

/-- **C148** (every line for itself) For floats or a Quantity, at least two old bins, as many as the array has along the axis, and edges of the same
physical type, the call returns an array whose length along the axis is the number of new bins, the other lengths being those of the data; each of its
lines along the axis is what the one-dimensional resampling gives for that line of the data, with the old edges expressed in the unit of the new ones. The unit is that
of the data. Every axis number that Python accepts can be given. -/
theorem C148_lines {n m : ℕ} (hn : n ≠ 0) (spline : ∀ n, (Fin n → K) → (Fin n → K) → K → K) (big : K) (data : HistData K) (a : ND K) (ha : data.floatArray = some a)
    (old : Edges K (n + 2)) (new : Edges K (m + 1)) (axis : ℤ) (k : ℕ) (hk : (k : ℤ) = axis ∨ (k : ℤ) = axis + a.shape.length ∧ axis < 0) (hkl : k < a.shape.length)
    (hlen : a.shape[k] = n + 1) (ou nu : PhysUnit K) (hou : ou = old.unit.getD ⟨Dim.one, 1⟩) (hnu : nu = new.unit.getD ⟨Dim.one, 1⟩)
    (hdim : ou.dim = nu.dim) (hso : 0 < ou.scale) (hsn : 0 < nu.scale) :
    ∃ r, resampleHistogram spline big data old new axis = .ok (r, data.unit) ∧ r.shape = a.shape.set k m ∧
      ∀ idx, ND.Valid r.shape idx → ∀ j : Fin m, idx[k]? = some j.val → ∀ out,
        resampleHistogram1d (spline (n + 2)) big (lineOf a k idx (n + 1)) (fun i => FV.fin (ou.scale / nu.scale) * old.value i) new.value = .ok out →
        r.get idx = out j := by
  have hax : ND.normAxis a.shape.length axis = .ok k := by
    unfold ND.normAxis
    rw [if_pos (by omega)]
    congr 1
    split <;> omega
  have hgd : a.shape.getD k 0 = n + 1 := by
    rw [List.getD_eq_getElem?_getD, List.getElem?_eq_getElem hkl]; exact hlen
  have hou' : old.unit.getD unitOne = ou := hou.symm
  have hnu' : new.unit.getD unitOne = nu := hnu.symm
  obtain ⟨r, hr, hrs, hrget⟩ := (resampleAxis_lines (spline (n + 2)) a (fun i => ou.scale / nu.scale * fixOldEdges old.value i)
    (fun j => finVal (FV.nanToNum (.fin big) (.fin (-big)) (new.value j))) hkl).1 hn hgd
  refine ⟨r, ?_, hrs, ?_⟩
  · unfold resampleHistogram
    simp only [hou', hnu', hdim, ne_eq, not_true_eq_false, if_false]
    cases data with
    | ints b => cases ha
    | floats b => cases ha; simp only [hax, hr]; rfl
    | quantity b un => cases ha; simp only [hax, hr]; rfl
  · intro idx hv j hj out hout
    have hjd : idx.getD k 0 = j.val := by rw [List.getD_eq_getElem?_getD, hj]; rfl
    rw [hrget idx hv (by rw [hjd]; exact j.isLt)]
    unfold resampleHistogram1d at hout
    rw [if_neg hn] at hout
    have hc : 0 < ou.scale / nu.scale := div_pos hso hsn
    have hfix : fixOldEdges (fun i => FV.fin (ou.scale / nu.scale) * old.value i) = fun i => ou.scale / nu.scale * fixOldEdges old.value i := by
      funext i; exact fixOldEdges_scale _ hc _ i
    rw [hfix] at hout
    rw [← Except.ok.inj hout]
    simp only [hjd]

/-- **C148** (errors) Fewer than two old edges: IndexError. Otherwise edges of different physical types (edges without a unit are dimensionless): UnitConversionError.
Otherwise an axis that does not exist: AxisError (a ValueError). Otherwise integers: TypeError. Otherwise a single old bin, or a number of old bins that differs from the
length of the data along the axis: ValueError. -/
theorem C148_errors {m : ℕ} (spline : ∀ n, (Fin n → K) → (Fin n → K) → K → K) (big : K) (data : HistData K) (new : Edges K (m + 1)) (axis : ℤ) :
    (∀ N, N < 2 → ∀ old : Edges K N, resampleHistogram spline big data old new axis = .error .indexError) ∧
    ∀ n, ∀ old : Edges K (n + 2),
      ((old.unit.getD ⟨Dim.one, 1⟩).dim ≠ (new.unit.getD ⟨Dim.one, 1⟩).dim → resampleHistogram spline big data old new axis = .error .unitsError) ∧
      ((old.unit.getD ⟨Dim.one, 1⟩).dim = (new.unit.getD ⟨Dim.one, 1⟩).dim →
        (¬ (-(data.shape.length : ℤ) ≤ axis ∧ axis < data.shape.length) → resampleHistogram spline big data old new axis = .error .valueError) ∧
        (-(data.shape.length : ℤ) ≤ axis ∧ axis < data.shape.length →
          (data.floatArray = none → resampleHistogram spline big data old new axis = .error .typeError) ∧
          (data.floatArray ≠ none → ∀ k : ℕ, (k : ℤ) = axis ∨ (k : ℤ) = axis + data.shape.length ∧ axis < 0 →
            (n = 0 ∨ data.shape[k]? ≠ some (n + 1)) → resampleHistogram spline big data old new axis = .error .valueError))) := by
  refine ⟨?_, ?_⟩
  · intro N hN old
    match N, old with
    | 0, _ => rfl
    | 1, _ => rfl
    | N + 2, _ => omega
  · intro n old
    refine ⟨fun h => ?_, fun h => ⟨fun hax => ?_, fun hax => ⟨fun hf => ?_, fun hf k hk hbad => ?_⟩⟩⟩
    · have h' : (old.unit.getD unitOne).dim ≠ (new.unit.getD unitOne).dim := h
      unfold resampleHistogram
      simp only [h', ne_eq, not_false_eq_true, if_true]
    · have h' : (old.unit.getD unitOne).dim = (new.unit.getD unitOne).dim := h
      have hn : ∀ l : ℕ, l = data.shape.length → ND.normAxis l axis = .error .valueError := by
        intro l hl; unfold ND.normAxis; rw [hl, if_neg hax]
      unfold resampleHistogram
      simp only [h', ne_eq, not_true_eq_false, if_false]
      cases data with
      | ints a => simp only [hn a.shape.length rfl]
      | floats a => simp only [hn a.shape.length rfl]
      | quantity a un => simp only [hn a.shape.length rfl]
    · have h' : (old.unit.getD unitOne).dim = (new.unit.getD unitOne).dim := h
      unfold resampleHistogram
      simp only [h', ne_eq, not_true_eq_false, if_false]
      cases data with
      | ints a =>
        have hn : ∃ k, ND.normAxis a.shape.length axis = .ok k := by
          unfold ND.normAxis; rw [if_pos (show -(a.shape.length : ℤ) ≤ axis ∧ axis < a.shape.length from hax)]; exact ⟨_, rfl⟩
        obtain ⟨k, hk⟩ := hn
        simp only [hk]
      | floats a => cases hf
      | quantity a un => cases hf
    · have h' : (old.unit.getD unitOne).dim = (new.unit.getD unitOne).dim := h
      have hn : ND.normAxis data.shape.length axis = .ok k := by
        unfold ND.normAxis
        rw [if_pos hax]
        congr 1
        split <;> omega
      have hkl : k < data.shape.length := ND.normAxis_lt hn
      have hval : ∀ a : ND K, a.shape = data.shape → ∀ o : Fin (n + 2) → K, ∀ w : Fin (m + 1) → K, resampleAxis (spline (n + 2)) a o w k = .error .valueError := by
        intro a ha o w
        refine (resampleAxis_lines (spline (n + 2)) a o w (by rw [ha]; exact hkl)).2 ?_
        rintro ⟨h1, h2⟩
        rcases hbad with hb | hb
        · exact h1 hb
        · rw [ha, List.getD_eq_getElem?_getD, List.getElem?_eq_getElem hkl] at h2
          exact hb (by rw [List.getElem?_eq_getElem hkl]; exact congrArg some h2)
      unfold resampleHistogram
      simp only [h', ne_eq, not_true_eq_false, if_false]
      cases data with
      | ints a => exact absurd rfl hf
      | floats a => simp only [show ND.normAxis a.shape.length axis = .ok k from hn, hval a rfl]
      | quantity a un => simp only [show ND.normAxis a.shape.length axis = .ok k from hn, hval a rfl]

/-- **C148** (content of every line) With edges in one unit, and new edges that extend over the old range: every line that does not add up to zero keeps its sum, whatever the
other lines hold. -/
theorem C148_conserves_lines {n m : ℕ} (hn : n ≠ 0) (spline : ∀ n, (Fin n → K) → (Fin n → K) → K → K) (hs : ThroughNodes (spline (n + 2))) (big : K) (data : HistData K)
    (a : ND K) (ha : data.floatArray = some a) (un : Option (PhysUnit K)) (hun : ∀ x, un = some x → 0 < x.scale)
    (old : Fin (n + 2) → K) (hold : StrictMono old) (new : Fin (m + 1) → K) (hlo : new 0 ≤ old 0) (hhi : old (Fin.last _) ≤ new (Fin.last m))
    (axis : ℤ) (k : ℕ) (hk : (k : ℤ) = axis ∨ (k : ℤ) = axis + a.shape.length ∧ axis < 0) (hkl : k < a.shape.length) (hlen : a.shape[k] = n + 1) :
    ∃ r, resampleHistogram spline big data ⟨fun i => .fin (old i), un⟩ ⟨fun j => .fin (new j), un⟩ axis = .ok (r, data.unit) ∧
      ∀ idx, ND.Valid a.shape idx → ∑ i : Fin (n + 1), a.get (idx.set k i.val) ≠ 0 →
        ∑ j : Fin m, r.get (idx.set k j.val) = ∑ i : Fin (n + 1), a.get (idx.set k i.val) := by
  have hpos : 0 < (un.getD (⟨Dim.one, 1⟩ : PhysUnit K)).scale := by
    cases un with
    | none => exact one_pos
    | some x => exact hun x rfl
  obtain ⟨r, hr, hrs, hget⟩ := C148_lines hn spline big data a ha ⟨fun i => .fin (old i), un⟩ ⟨fun j => .fin (new j), un⟩ axis k hk hkl hlen _ _ rfl rfl rfl hpos hpos
  refine ⟨r, hr, fun idx hv hne => ?_⟩
  obtain ⟨out, ho, hsum⟩ := C07_conserves_total hn (spline (n + 2)) hs big (lineOf a k idx (n + 1)) old hold new hlo hhi hne
  rw [← show ∑ j, lineOf a k idx (n + 1) j = ∑ i : Fin (n + 1), a.get (idx.set k i.val) from rfl, ← hsum]
  refine Finset.sum_congr rfl fun j _ => ?_
  have hki : k < idx.length := by rw [ND.valid_length hv]; exact hkl
  refine hget (idx.set k j.val) (by rw [hrs]; exact ND.valid_set hv j.isLt) j (List.getElem?_set_self hki) out ?_
  have hl : lineOf a k (idx.set k j.val) (n + 1) = lineOf a k idx (n + 1) := by
    funext i; unfold lineOf; rw [List.set_set]
  have he : (fun i => FV.fin ((un.getD (⟨Dim.one, 1⟩ : PhysUnit K)).scale / (un.getD (⟨Dim.one, 1⟩ : PhysUnit K)).scale) * FV.fin (old i)) = fun i => FV.fin (old i) := by
    funext i; rw [div_self hpos.ne', FV.fin_mul_fin, one_mul]
  rw [hl]
  exact (congrArg (fun o => resampleHistogram1d (spline (n + 2)) big (lineOf a k idx (n + 1)) o (fun j => FV.fin (new j))) he).trans ho

/-- **C148** (identity) Resampling to the same edges, in the same unit, returns the data with its unit, along every axis. -/
theorem C148_identity {n : ℕ} (hn : n ≠ 0) (spline : ∀ n, (Fin n → K) → (Fin n → K) → K → K) (hs : ThroughNodes (spline (n + 2))) (big : K) (data : HistData K)
    (a : ND K) (ha : data.floatArray = some a) (un : Option (PhysUnit K)) (hun : ∀ x, un = some x → 0 < x.scale)
    (old : Fin (n + 2) → K) (hold : StrictMono old)
    (axis : ℤ) (k : ℕ) (hk : (k : ℤ) = axis ∨ (k : ℤ) = axis + a.shape.length ∧ axis < 0) (hkl : k < a.shape.length) (hlen : a.shape[k] = n + 1) :
    ∃ r, resampleHistogram spline big data ⟨fun i => .fin (old i), un⟩ ⟨fun i => .fin (old i), un⟩ axis = .ok (r, data.unit) ∧
      r.shape = a.shape ∧ ∀ idx, ND.Valid a.shape idx → r.get idx = a.get idx := by
  have hpos : 0 < (un.getD (⟨Dim.one, 1⟩ : PhysUnit K)).scale := by
    cases un with
    | none => exact one_pos
    | some x => exact hun x rfl
  obtain ⟨r, hr, hrs, hget⟩ := C148_lines hn spline big data a ha ⟨fun i => .fin (old i), un⟩ ⟨fun j => .fin (old j), un⟩ axis k hk hkl hlen _ _ rfl rfl rfl hpos hpos
  have hsh : a.shape.set k (n + 1) = a.shape := by rw [← hlen]; exact List.set_getElem_self hkl
  refine ⟨r, hr, hrs.trans hsh, fun idx hv => ?_⟩
  have hki : k < idx.length := by rw [ND.valid_length hv]; exact hkl
  have hlt : idx[k] < n + 1 := by rw [← hlen]; exact (ND.valid_iff.1 hv).2 k hki hkl
  have he : (fun i => FV.fin ((un.getD (⟨Dim.one, 1⟩ : PhysUnit K)).scale / (un.getD (⟨Dim.one, 1⟩ : PhysUnit K)).scale) * FV.fin (old i)) = fun i => FV.fin (old i) := by
    funext i; rw [div_self hpos.ne', FV.fin_mul_fin, one_mul]
  have h1 := hget idx (by rw [hrs, hsh]; exact hv) ⟨idx[k], hlt⟩ (List.getElem?_eq_getElem hki) (lineOf a k idx (n + 1))
    ((congrArg (fun o => resampleHistogram1d (spline (n + 2)) big (lineOf a k idx (n + 1)) o (fun j => FV.fin (old j))) he).trans
      (C07_identity hn (spline (n + 2)) hs big (lineOf a k idx (n + 1)) old hold))
  rw [h1]
  show a.get (idx.set k idx[k]) = _
  rw [List.set_getElem_self hki]

/-- **C148** (independence) Two arrays of the same shape that agree along a line give the same result along that line, whatever the other lines hold. -/
theorem C148_independent {n m : ℕ} (hn : n ≠ 0) (spline : ∀ n, (Fin n → K) → (Fin n → K) → K → K) (big : K) (d d' : HistData K) (a a' : ND K)
    (ha : d.floatArray = some a) (ha' : d'.floatArray = some a') (hsh : a'.shape = a.shape)
    (old : Edges K (n + 2)) (new : Edges K (m + 1)) (axis : ℤ) (k : ℕ) (hk : (k : ℤ) = axis ∨ (k : ℤ) = axis + a.shape.length ∧ axis < 0) (hkl : k < a.shape.length)
    (hlen : a.shape[k] = n + 1) (hdim : (old.unit.getD ⟨Dim.one, 1⟩).dim = (new.unit.getD ⟨Dim.one, 1⟩).dim)
    (hso : 0 < (old.unit.getD ⟨Dim.one, 1⟩).scale) (hsn : 0 < (new.unit.getD ⟨Dim.one, 1⟩).scale)
    (idx : List ℕ) (hv : ND.Valid (a.shape.set k m) idx) (hagree : ∀ i < n + 1, a.get (idx.set k i) = a'.get (idx.set k i)) :
    ∃ r r', resampleHistogram spline big d old new axis = .ok (r, d.unit) ∧ resampleHistogram spline big d' old new axis = .ok (r', d'.unit) ∧
      r.get idx = r'.get idx := by
  obtain ⟨r, hr, hrs, hget⟩ := C148_lines hn spline big d a ha old new axis k hk hkl hlen _ _ rfl rfl hdim hso hsn
  obtain ⟨r', hr', hrs', hget'⟩ := C148_lines hn spline big d' a' ha' old new axis k (by rw [hsh]; exact hk) (by rw [hsh]; exact hkl) (by simp only [hsh]; exact hlen) _ _ rfl rfl hdim hso hsn
  refine ⟨r, r', hr, hr', ?_⟩
  have hki : k < idx.length := by rw [ND.valid_length hv, List.length_set]; exact hkl
  have hlt : idx[k] < m := by
    have := (ND.valid_iff.1 hv).2 k hki (by rw [List.length_set]; exact hkl)
    simpa using this
  have hl : lineOf a' k idx (n + 1) = lineOf a k idx (n + 1) := by
    funext i; exact (hagree i.val i.isLt).symm
  obtain ⟨out, hout⟩ : ∃ out, resampleHistogram1d (spline (n + 2)) big (lineOf a k idx (n + 1))
      (fun i => FV.fin ((old.unit.getD (⟨Dim.one, 1⟩ : PhysUnit K)).scale / (new.unit.getD (⟨Dim.one, 1⟩ : PhysUnit K)).scale) * old.value i) new.value = .ok out := by
    unfold resampleHistogram1d; rw [if_neg hn]; exact ⟨_, rfl⟩
  rw [hget idx (by rw [hrs]; exact hv) ⟨idx[k], hlt⟩ (List.getElem?_eq_getElem hki) out hout]
  rw [hget' idx (by rw [hrs', hsh]; exact hv) ⟨idx[k], hlt⟩ (List.getElem?_eq_getElem hki) out (by rw [hl]; exact hout)]

/-- **C148** (units of the edges) The result does not depend on the units in which the old and the new edges are given: converting the old edges to another unit,
and finite new edges to another one, gives the same array, for an interpolant that does not depend on the unit of the abscissa. -/
theorem C148_edge_units {n m : ℕ} (spline : ∀ n, (Fin n → K) → (Fin n → K) → K → K)
    (hs : ∀ c : K, 0 < c → ∀ (xs ys : Fin (n + 2) → K) (t : K), spline (n + 2) (fun i => c * xs i) ys (c * t) = spline (n + 2) xs ys t) (big : K) (data : HistData K)
    (old : Fin (n + 2) → FV K) (new : Fin (m + 1) → K) (axis : ℤ) (ou ou' nu nu' : PhysUnit K) (hdo : ou'.dim = ou.dim) (hdn : nu'.dim = nu.dim)
    (hso : 0 < ou.scale) (hso' : 0 < ou'.scale) (hsn : 0 < nu.scale) (hsn' : 0 < nu'.scale) :
    resampleHistogram spline big data ⟨fun i => FV.fin (ou.scale / ou'.scale) * old i, some ou'⟩ ⟨fun j => FV.fin (nu.scale / nu'.scale * new j), some nu'⟩ axis =
      resampleHistogram spline big data ⟨old, some ou⟩ ⟨fun j => FV.fin (new j), some nu⟩ axis := by
  unfold resampleHistogram
  simp only [Option.getD_some, hdo, hdn]
  by_cases hd : ou.dim = nu.dim
  · simp only [hd, ne_eq, not_true_eq_false, if_false]
    set c := nu.scale / nu'.scale with hc
    have hcp : 0 < c := div_pos hsn hsn'
    have e1 : (fun i => ou'.scale / nu'.scale * fixOldEdges (fun i => FV.fin (ou.scale / ou'.scale) * old i) i) = fun i => c * (ou.scale / nu.scale * fixOldEdges old i) := by
      funext i
      rw [fixOldEdges_scale _ (div_pos hso hso')]
      rw [hc]
      field_simp
    have hfill : ∀ (xs ys : Fin (n + 2) → K) (t : K), interpFill (spline (n + 2)) (fun i => c * xs i) ys (c * t) = interpFill (spline (n + 2)) xs ys t := by
      intro xs ys t
      unfold interpFill
      simp only [mul_lt_mul_iff_right₀ hcp, hs c hcp]
    have hax : ∀ (a : ND K) (k : ℕ), resampleAxis (spline (n + 2)) a (fun i => c * (ou.scale / nu.scale * fixOldEdges old i)) (fun j => c * new j) k =
        resampleAxis (spline (n + 2)) a (fun i => ou.scale / nu.scale * fixOldEdges old i) new k := by
      intro a k
      unfold resampleAxis interpAxis
      simp only [hfill]
    have e2 : (fun j : Fin (m + 1) => finVal (FV.nanToNum (.fin big) (.fin (-big)) (FV.fin (c * new j)))) = fun j => c * new j := rfl
    have e3 : (fun j : Fin (m + 1) => finVal (FV.nanToNum (.fin big) (.fin (-big)) (FV.fin (new j)))) = new := rfl
    simp only [e1, e2, e3, hax]
  · simp only [hd, ne_eq, not_false_eq_true, if_true]

/-! ## The hypotheses are satisfiable -/

/-- an interpolant through the nodes -/
def stepSpline (n : ℕ) (xs ys : Fin n → ℚ) (t : ℚ) : ℚ := ∑ i, if t = xs i then ys i else 0

theorem stepSpline_nodes (n : ℕ) : ThroughNodes (stepSpline n) := by
  intro xs ys hx i
  unfold stepSpline
  rw [Finset.sum_eq_single i]
  · simp
  · intro b _ hb
    rw [if_neg (fun h => hb (hx.injective h.symm))]
  · simp

theorem stepSpline_scale (n : ℕ) (c : ℚ) (hc : 0 < c) (xs ys : Fin n → ℚ) (t : ℚ) : stepSpline n (fun i => c * xs i) ys (c * t) = stepSpline n xs ys t := by
  unfold stepSpline
  simp only [mul_right_inj' hc.ne']

/-- an array of shape (2, 3) with an empty line -/
def exampleData : ND ℚ := ⟨[2, 3], fun idx => if idx.getD 0 0 = 0 then 0 else idx.getD 1 0 + 1⟩

/-- the last axis, with wider new edges: the content of the second line is conserved -/
example : ∃ r, resampleHistogram stepSpline 1000 (.quantity exampleData ⟨Dim.one, 1⟩) ⟨fun i : Fin 4 => .fin (i.val : ℚ), none⟩
      ⟨fun j : Fin 3 => .fin (2 * j.val - 1 / 2 : ℚ), none⟩ (-1) = .ok (r, some ⟨Dim.one, 1⟩) ∧
    ∑ j : Fin 2, r.get [1, j.val] = 6 := by
  obtain ⟨r, hr, h⟩ := C148_conserves_lines (n := 2) (m := 2) (by decide) stepSpline (stepSpline_nodes _) 1000 (.quantity exampleData ⟨Dim.one, 1⟩) exampleData rfl none (by simp)
    (fun i => (i.val : ℚ)) (by intro i j hij; exact Nat.cast_lt.2 (Fin.lt_def.1 hij)) (fun j => 2 * j.val - 1 / 2) (by norm_num) (by simp; norm_num)
    (-1) 1 (Or.inr ⟨by decide, by decide⟩) (by decide) rfl
  refine ⟨r, hr, ?_⟩
  have hs : ∑ i : Fin 3, exampleData.get ([1, 0].set 1 i.val) = 6 := by decide +kernel
  have := h [1, 0] (List.Forall₂.cons (by decide) (List.Forall₂.cons (by decide) List.Forall₂.nil)) (by rw [hs]; decide)
  rw [hs] at this
  exact this

end Pyirf.Binning
