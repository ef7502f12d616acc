import Verif.Rounded.Model

/-!
# C143: weighted histograms in rounded arithmetic
-/
set_option linter.unusedSectionVars false
set_option linter.unusedSimpArgs false

namespace Pyirf.Rounded
open Pyirf Pyirf.Np

/-! ## Specification -/

/-- `x` is `X` up to `n` roundings. -/
def Near (R : Rounding) (n : ℕ) (x X : ℝ) : Prop := (1 - R.u) ^ n * X ≤ x ∧ x ≤ (1 + R.u) ^ n * X

/-- Sum of the weights of the entries whose value satisfies `P`. -/
noncomputable def weightWhere (xs : List Entry) (P : FV ℝ → Prop) [DecidablePred P] : ℝ := ((xs.filter fun v => decide (P v.1)).map Prod.snd).sum

/-- The blocks hold the entries, each block sorted by value (NaN last). -/
structure SortedBlocks (xs : List Entry) (blocks : List (List Entry)) : Prop where
  perm : blocks.flatten.Perm xs
  sorted : ∀ b ∈ blocks, b.Pairwise fun v w => FV.sortLt w.1 v.1 = false

/-! ## Sums -/

variable (R : Rounding)

theorem foldl_add (ws : List ℝ) (s : ℝ) (hw : ∀ w ∈ ws, 0 ≤ w) (hs : R.Is s) (hs0 : 0 ≤ s) :
    s ≤ ws.foldl R.add s ∧ R.Is (ws.foldl R.add s) := by
  induction ws generalizing s with
  | nil => exact ⟨le_rfl, hs⟩
  | cons w ws ih =>
    have h0 := hw w (by simp)
    have h1 : s ≤ R.add s w := R.ge_of_ge hs (by linarith)
    obtain ⟨h2, h3⟩ := ih (R.add s w) (fun w' hw' => hw w' (by simp [hw'])) (R.idem _) (by linarith)
    exact ⟨h1.trans h2, h3⟩

theorem seqSum_is (ws : List ℝ) (hw : ∀ w ∈ ws, 0 ≤ w) : R.Is (seqSum R ws) ∧ 0 ≤ seqSum R ws := by
  obtain ⟨h1, h2⟩ := foldl_add R ws 0 hw R.zero le_rfl
  exact ⟨h2, h1⟩

theorem seqSum_prefix {l l' : List ℝ} (h : l <+: l') (hw : ∀ w ∈ l', 0 ≤ w) : seqSum R l ≤ seqSum R l' := by
  obtain ⟨t, rfl⟩ := h
  unfold seqSum
  rw [List.foldl_append]
  obtain ⟨h1, h2⟩ := seqSum_is R l (fun w hw' => hw w (by simp [hw']))
  exact (foldl_add R t _ (fun w hw' => hw w (by simp [hw'])) h1 h2).1

theorem foldl_mono {α : Type*} (bs : List α) (f g : α → ℝ) (h : ∀ b ∈ bs, f b ≤ g b) (s t : ℝ) (hst : s ≤ t) :
    (bs.map f).foldl R.add s ≤ (bs.map g).foldl R.add t := by
  induction bs generalizing s t with
  | nil => exact hst
  | cons b bs ih =>
    simp only [List.map_cons, List.foldl_cons]
    exact ih (fun b' hb' => h b' (by simp [hb'])) _ _ (R.mono (add_le_add hst (h b (by simp))))

theorem pow_bounds (n : ℕ) : 0 < (1 - R.u) ^ n ∧ (1 - R.u) ^ n ≤ 1 ∧ 1 ≤ (1 + R.u) ^ n := by
  have h1 := R.u_nonneg
  have h2 := R.u_lt_one
  exact ⟨pow_pos (by linarith) n, pow_le_one₀ (by linarith) (by linarith), one_le_pow₀ (by linarith)⟩

theorem Near.weaken {n m : ℕ} {x X : ℝ} (h : Near R n x X) (hX : 0 ≤ X) (hnm : n ≤ m) : Near R m x X := by
  have h1 := R.u_nonneg
  have h2 := R.u_lt_one
  constructor
  · refine le_trans (mul_le_mul_of_nonneg_right ?_ hX) h.1
    exact pow_le_pow_of_le_one (by linarith) (by linarith) hnm
  · refine h.2.trans (mul_le_mul_of_nonneg_right ?_ hX)
    exact pow_le_pow_right₀ (by linarith) hnm

/-- adding up numbers that are `k` roundings off -/
theorem foldl_near {α : Type*} (bs : List α) (f F : α → ℝ) (k : ℕ) (hF : ∀ b ∈ bs, 0 ≤ F b) (h : ∀ b ∈ bs, Near R k (f b) (F b)) (j : ℕ) (s S : ℝ) (hS : 0 ≤ S) (hs : Near R (k + j) s S) :
    Near R (k + j + bs.length) ((bs.map f).foldl R.add s) (S + (bs.map F).sum) := by
  induction bs generalizing s S j with
  | nil => simpa using hs
  | cons b bs ih =>
    have hFb := hF b (by simp)
    have hb := (h b (by simp)).weaken R hFb (show k ≤ k + j by omega)
    have hu0 := R.u_nonneg
    have hu1 := R.u_lt_one
    have hp := pow_bounds R (k + j)
    have hsum : Near R (k + j) (s + f b) (S + F b) := by
      constructor
      · rw [mul_add]; exact add_le_add hs.1 hb.1
      · rw [mul_add]; exact add_le_add hs.2 hb.2
    have hpos : 0 ≤ s + f b := le_trans (mul_nonneg hp.1.le (by linarith)) hsum.1
    have hstep : Near R (k + (j + 1)) (R.add s (f b)) (S + F b) := by
      obtain ⟨b1, b2⟩ := R.bounds hpos
      constructor
      · refine le_trans ?_ b1
        rw [← add_assoc, pow_succ, mul_comm _ (1 - R.u), mul_assoc]
        exact mul_le_mul_of_nonneg_left hsum.1 (by linarith)
      · refine b2.trans ?_
        rw [← add_assoc, pow_succ, mul_comm _ (1 + R.u), mul_assoc]
        exact mul_le_mul_of_nonneg_left hsum.2 (by linarith)
    have := ih (fun b' hb' => hF b' (by simp [hb'])) (fun b' hb' => h b' (by simp [hb'])) (j + 1) _ _ (by linarith) hstep
    simp only [List.map_cons, List.foldl_cons, List.sum_cons, List.length_cons]
    rw [show k + j + (bs.length + 1) = k + (j + 1) + bs.length by omega, ← add_assoc S]
    exact this

theorem near_refl (x : ℝ) : Near R 0 x x := by constructor <;> simp

theorem seqSum_near (ws : List ℝ) (hw : ∀ w ∈ ws, 0 ≤ w) : Near R ws.length (seqSum R ws) ws.sum := by
  have := foldl_near R ws id id 0 hw (fun b _ => near_refl R b) 0 0 0 le_rfl (near_refl R 0)
  simpa [seqSum] using this

/-! ## Cumulative sums at the edges -/

/-- the cumulative weight of the entries at the start of each block that satisfy `p` -/
noncomputable def cumBy (p : FV ℝ → Bool) (blocks : List (List Entry)) : ℝ := seqSum R (blocks.map fun b => seqSum R ((b.takeWhile fun v => p v.1).map Prod.snd))

theorem takeWhile_prefix_of_imp {α : Type*} {p q : α → Bool} (h : ∀ x, p x = true → q x = true) (l : List α) : l.takeWhile p <+: l.takeWhile q := by
  induction l with
  | nil => simp
  | cons a l ih =>
    rw [List.takeWhile_cons, List.takeWhile_cons]
    cases hp : p a with
    | false => simp
    | true => rw [h a hp]; simp only [if_true]; exact (List.cons_prefix_cons).mpr ⟨rfl, ih⟩

theorem cumBy_nonneg {p : FV ℝ → Bool} {blocks : List (List Entry)} (hw : ∀ b ∈ blocks, ∀ v ∈ b, 0 ≤ v.2) : 0 ≤ cumBy R p blocks := by
  apply (seqSum_is R _ _).2
  intro w hw'
  obtain ⟨b, hb, rfl⟩ := List.mem_map.mp hw'
  apply (seqSum_is R _ _).2
  intro w hw'
  obtain ⟨v, hv, rfl⟩ := List.mem_map.mp hw'
  exact hw b hb v (List.takeWhile_subset _ hv)

theorem cumBy_mono {p q : FV ℝ → Bool} (h : ∀ x, p x = true → q x = true) (blocks : List (List Entry)) (hw : ∀ b ∈ blocks, ∀ v ∈ b, 0 ≤ v.2) : cumBy R p blocks ≤ cumBy R q blocks := by
  unfold cumBy seqSum
  apply foldl_mono R _ _ _ _ _ _ le_rfl
  intro b hb
  apply seqSum_prefix
  · exact (takeWhile_prefix_of_imp (fun v => h v.1) b).map _
  · intro w hw'
    obtain ⟨v, hv, rfl⟩ := List.mem_map.mp hw'
    exact hw b hb v (List.takeWhile_subset _ hv)

theorem takeWhile_congr_mem {α : Type*} {p q : α → Bool} (l : List α) (h : ∀ x ∈ l, p x = q x) : l.takeWhile p = l.takeWhile q := by
  induction l with
  | nil => rfl
  | cons a l ih => rw [List.takeWhile_cons, List.takeWhile_cons, h a (by simp), ih (fun x hx => h x (by simp [hx]))]

theorem cumBy_congr {p q : FV ℝ → Bool} (blocks : List (List Entry)) (h : ∀ b ∈ blocks, ∀ v ∈ b, p v.1 = q v.1) : cumBy R p blocks = cumBy R q blocks := by
  unfold cumBy
  congr 1
  apply List.map_congr_left
  intro b hb
  rw [takeWhile_congr_mem b (p := fun v => p v.1) (q := fun v => q v.1) (h b hb)]

theorem takeWhile_eq_filter {p : FV ℝ → Bool} (hp : ∀ a b, FV.sortLt b a = false → p b = true → p a = true) (l : List Entry) (hl : l.Pairwise fun v w => FV.sortLt w.1 v.1 = false) :
    (l.takeWhile fun v => p v.1) = l.filter fun v => p v.1 := by
  induction l with
  | nil => rfl
  | cons a l ih =>
    obtain ⟨h1, h2⟩ := List.pairwise_cons.mp hl
    rw [List.takeWhile_cons, List.filter_cons, ih h2]
    cases hpa : p a.1 with
    | true => rfl
    | false =>
      simp only [Bool.false_eq_true, if_false]
      symm
      rw [List.filter_eq_nil_iff]
      intro v hv hpv
      have := hp a.1 v.1 (h1 v hv) hpv
      rw [hpa] at this
      cases this

theorem wsum_flatten (p : FV ℝ → Bool) (blocks : List (List Entry)) : (blocks.map fun b => ((b.filter fun v => p v.1).map Prod.snd).sum).sum = Np.wsum p blocks.flatten := by
  induction blocks with
  | nil => rfl
  | cons b blocks ih =>
    rw [List.map_cons, List.sum_cons, ih, List.flatten_cons]
    unfold Np.wsum
    rw [List.filter_append, List.map_append, List.sum_append]

theorem cumBy_near {p : FV ℝ → Bool} (hp : ∀ a b, FV.sortLt b a = false → p b = true → p a = true) {xs : List Entry} {blocks : List (List Entry)} (hb : SortedBlocks xs blocks) (hw : ∀ v ∈ xs, 0 ≤ v.2) :
    Near R (xs.length + blocks.length) (cumBy R p blocks) (Np.wsum p xs) := by
  have hw' : ∀ b ∈ blocks, ∀ v ∈ b, 0 ≤ v.2 := fun b hb' v hv => hw v (hb.perm.mem_iff.mp (List.mem_flatten.mpr ⟨b, hb', hv⟩))
  have hsum : Np.wsum p xs = (blocks.map fun b => ((b.filter fun v => p v.1).map Prod.snd).sum).sum := by
    rw [wsum_flatten]
    unfold Np.wsum
    exact (((hb.perm.filter _).map _).sum_eq).symm
  rw [hsum]
  have hnn : ∀ b ∈ blocks, 0 ≤ ((b.filter fun v => p v.1).map Prod.snd).sum := by
    intro b hb'
    apply List.sum_nonneg
    intro w hw''
    obtain ⟨v, hv, rfl⟩ := List.mem_map.mp hw''
    exact hw' b hb' v (List.mem_filter.mp hv).1
  have key := foldl_near R blocks (fun b => seqSum R ((b.takeWhile fun v => p v.1).map Prod.snd)) (fun b => ((b.filter fun v => p v.1).map Prod.snd).sum) xs.length hnn
    (by
      intro b hb'
      have hnear := seqSum_near R ((b.filter fun v => p v.1).map Prod.snd) (by
        intro w hw''
        obtain ⟨v, hv, rfl⟩ := List.mem_map.mp hw''
        exact hw' b hb' v (List.mem_filter.mp hv).1)
      rw [takeWhile_eq_filter hp b (hb.sorted b hb')]
      refine hnear.weaken R (hnn b hb') ?_
      rw [List.length_map]
      refine (List.length_filter_le _ _).trans ?_
      rw [← hb.perm.length_eq]
      exact (List.sublist_flatten_of_mem hb').length_le) 0 0 0 le_rfl (by constructor <;> simp)
  simpa [cumBy, seqSum] using key

theorem length_histCum (edges : List (FV ℝ)) (blocks : List (List Entry)) : (histCum R edges blocks).length = edges.length := by
  unfold histCum
  rcases List.eq_nil_or_concat edges with rfl | ⟨l, a, rfl⟩
  · simp
  · simp

theorem getElem_histCum' {es : List (FV ℝ)} (h : Increasing es) (blocks : List (List Entry)) (i : ℕ) (hi : i < es.length) :
    (histCum R es blocks)[i]'(by rw [length_histCum]; exact hi)
      = if i + 1 = es.length then cumBy R (fun x => FV.le x es[i]) blocks else cumBy R (fun x => FV.lt x es[i]) blocks := by
  have hn := h.getElem_ne_nan hi
  have e1 : (fun x => FV.le x es[i]) = fun x => !FV.sortLt es[i] x := funext fun x => (sortLt_not hn).symm
  have e2 : (fun x => FV.lt x es[i]) = fun x => FV.sortLt x es[i] := funext fun x => (sortLt_of_ne_nan hn).symm
  rw [e1, e2]
  clear e1 e2 hn h
  rcases List.eq_nil_or_concat es with rfl | ⟨l, a, rfl⟩
  · simp at hi
  · simp only [List.concat_eq_append, List.length_append, List.length_singleton] at hi
    unfold histCum
    rcases Nat.lt_or_ge i l.length with hlt | hge
    · have : ¬ (i + 1 = (l.concat a).length) := by simp; omega
      rw [if_neg this]
      simp [List.getElem_append, hlt, cumBy, cumLeft]
    · have hi : i = l.length := by omega
      subst hi
      simp [cumBy, cumRight]

theorem near_abs {n : ℕ} {x X : ℝ} (h : Near R n x X) (hX : 0 ≤ X) : |x - X| ≤ ((1 + R.u) ^ n - 1) * X := by
  have h0 := R.u_nonneg
  have h1 := R.u_lt_one
  have b1 : 1 + (n : ℝ) * R.u ≤ (1 + R.u) ^ n := one_add_mul_le_pow (by linarith) n
  have b2 : 1 + (n : ℝ) * (-R.u) ≤ (1 + -R.u) ^ n := one_add_mul_le_pow (by linarith) n
  rw [← sub_eq_add_neg] at b2
  rw [abs_le]
  constructor
  · have := h.1
    nlinarith
  · have := h.2
    nlinarith

theorem lt_down {e a b : FV ℝ} (he : e ≠ .nan) (hab : FV.sortLt b a = false) (hb : FV.lt b e = true) : FV.lt a e = true := by
  have hbn := (FV.ne_nan_of_lt hb).1
  have han : a ≠ .nan := by
    rintro rfl
    cases b <;> simp_all [FV.sortLt]
  rw [sortLt_of_ne_nan han] at hab
  rcases FV.le_or_lt' han hbn with h | h
  · exact FV.lt_of_le_of_lt' h hb
  · rw [hab] at h; cases h

theorem le_down {e a b : FV ℝ} (he : e ≠ .nan) (hab : FV.sortLt b a = false) (hb : FV.le b e = true) : FV.le a e = true := by
  have hbn := (FV.ne_nan_of_le hb).1
  have han : a ≠ .nan := by
    rintro rfl
    cases b <;> simp_all [FV.sortLt]
  rw [sortLt_of_ne_nan han] at hab
  rcases FV.le_or_lt' han hbn with h | h
  · exact FV.le_trans' h hb
  · rw [hab] at h; cases h

/-! ## C143 -/

/-- **C143** `n_weighted` of `create_histogram_table` in rounded arithmetic, for non-negative weights and any order of the events: no bin is negative, bins without events hold exactly 0, and the error of a bin is at most
`(1+u)^(events + blocks + 1) - 1` times twice the weight of *all events below the upper edge of the bin* (not of the events in the bin). -/
theorem C143_histogram (edges : List (FV ℝ)) (h : Increasing edges) (xs : List Entry) (blocks : List (List Entry)) (hb : SortedBlocks xs blocks) (hw : ∀ v ∈ xs, 0 ≤ v.2) :
    (histogram R edges blocks).length = edges.length - 1 ∧
    ∀ (i : ℕ) (hi : i + 1 < edges.length), ∃ c, (histogram R edges blocks)[i]? = some c ∧ 0 ≤ c ∧
      ((∀ v ∈ xs, ¬ InHistBin edges i v.1) → c = 0) ∧
      |c - weightWhere xs (fun x => InHistBin edges i x)| ≤ ((1 + R.u) ^ (xs.length + blocks.length + 1) - 1) * (2 * weightWhere xs fun x => FV.le x edges[i + 1] = true) := by
  have hw' : ∀ b ∈ blocks, ∀ v ∈ b, 0 ≤ v.2 := fun b hb' v hv => hw v (hb.perm.mem_iff.mp (List.mem_flatten.mpr ⟨b, hb', hv⟩))
  have hmem : ∀ b ∈ blocks, ∀ v ∈ b, v ∈ xs := fun b hb' v hv => hb.perm.mem_iff.mp (List.mem_flatten.mpr ⟨b, hb', hv⟩)
  refine ⟨by simp [histogram, length_histCum], fun i hi => ?_⟩
  have hlen : i < (histogram R edges blocks).length := by simp [histogram, length_histCum]; omega
  refine ⟨_, List.getElem?_eq_getElem hlen, ?_⟩
  have hval : (histogram R edges blocks)[i] = R.sub ((histCum R edges blocks)[i + 1]'(by rw [length_histCum]; exact hi)) ((histCum R edges blocks)[i]'(by rw [length_histCum]; omega)) := by
    simp [histogram, List.getElem_zipWith, List.getElem_tail]
  rw [hval, getElem_histCum' R h blocks (i + 1) hi, getElem_histCum' R h blocks i (by omega), if_neg (show ¬ i + 1 = edges.length by omega)]
  have hle : FV.le edges[i] edges[i+1] = true := h.getElem_le (by omega) hi
  have hn0 := h.getElem_ne_nan (show i < edges.length by omega)
  have hn1 := h.getElem_ne_nan hi
  -- the predicate at the upper edge
  obtain ⟨q, hq, hqdown, hqle, hqbin, hqup⟩ : ∃ q : FV ℝ → Bool,
      (if i + 1 + 1 = edges.length then cumBy R (fun x => FV.le x edges[i + 1]) blocks else cumBy R (fun x => FV.lt x edges[i + 1]) blocks) = cumBy R q blocks ∧
      (∀ a b, FV.sortLt b a = false → q b = true → q a = true) ∧ (∀ x, FV.lt x edges[i] = true → q x = true) ∧
      (∀ x, (q x = true ∧ ¬ FV.lt x edges[i] = true) ↔ InHistBin edges i x) ∧ (∀ x, q x = true → FV.le x edges[i + 1] = true) := by
    have hlow : ∀ x : FV ℝ, x ≠ .nan → (¬ FV.lt x edges[i] = true ↔ FV.le edges[i] x = true) := by
      intro x hx
      constructor
      · intro hc
        rcases FV.le_or_lt' hn0 hx with h1 | h1
        · exact h1
        · exact absurd h1 hc
      · intro hc hc'
        rw [FV.not_lt_of_le hc] at hc'
        cases hc'
    by_cases hlast : i + 1 + 1 = edges.length
    · refine ⟨fun x => FV.le x edges[i + 1], if_pos hlast, fun a b => le_down hn1, fun x hx => FV.le_of_lt' (FV.lt_of_lt_of_le' hx hle), fun x => ?_, fun x hx => hx⟩
      constructor
      · rintro ⟨h1, h2⟩
        exact ⟨hi, (hlow x (FV.ne_nan_of_le h1).1).mp h2, Or.inr ⟨by omega, h1⟩⟩
      · rintro ⟨_, h1, h2⟩
        refine ⟨?_, (hlow x (FV.ne_nan_of_le h1).2).mpr h1⟩
        rcases h2 with h2 | ⟨-, h2⟩
        · exact FV.le_of_lt' h2
        · exact h2
    · refine ⟨fun x => FV.lt x edges[i + 1], if_neg hlast, fun a b => lt_down hn1, fun x hx => FV.lt_of_lt_of_le' hx hle, fun x => ?_, fun x hx => FV.le_of_lt' hx⟩
      constructor
      · rintro ⟨h1, h2⟩
        exact ⟨hi, (hlow x (FV.ne_nan_of_lt h1).1).mp h2, Or.inl h1⟩
      · rintro ⟨_, h1, h2⟩
        refine ⟨?_, (hlow x (FV.ne_nan_of_le h1).2).mpr h1⟩
        rcases h2 with h2 | ⟨h2, -⟩
        · exact h2
        · omega
  rw [hq]
  have hmono := cumBy_mono R hqle blocks hw'
  have hc0 := cumBy_nonneg R (p := fun x => FV.lt x edges[i]) hw'
  refine ⟨R.nonneg (by linarith), ?_, ?_⟩
  · intro hempty
    have : cumBy R q blocks = cumBy R (fun x => FV.lt x edges[i]) blocks := by
      apply cumBy_congr
      intro b hb' v hv
      rw [Bool.eq_iff_iff]
      constructor
      · intro h1
        by_contra h2
        exact hempty v (hmem b hb' v hv) ((hqbin v.1).mp ⟨h1, h2⟩)
      · exact hqle v.1
    rw [this]
    show R.rd _ = 0
    rw [sub_self]
    exact R.zero
  · have n1 := cumBy_near R hqdown hb hw
    have n0 := cumBy_near R (p := fun x => FV.lt x edges[i]) (fun a b => lt_down hn0) hb hw
    set N := xs.length + blocks.length with hN
    have W0 : 0 ≤ Np.wsum (fun x => FV.lt x edges[i]) xs := by
      apply List.sum_nonneg
      intro w hw''
      obtain ⟨v, hv, rfl⟩ := List.mem_map.mp hw''
      exact hw v (List.mem_filter.mp hv).1
    have hdiff : Np.wsum q xs - Np.wsum (fun x => FV.lt x edges[i]) xs = weightWhere xs (fun x => InHistBin edges i x) := by
      rw [wsum_sub hqle]
      unfold weightWhere Np.wsum
      congr 2
      apply List.filter_congr
      intro v _
      rw [Bool.eq_iff_iff]
      simp only [Bool.and_eq_true, Bool.not_eq_true', decide_eq_true_eq]
      rw [← hqbin v.1]
      simp
    have hle01 : Np.wsum (fun x => FV.lt x edges[i]) xs ≤ Np.wsum q xs := by
      have : 0 ≤ weightWhere xs (fun x => InHistBin edges i x) := by
        apply List.sum_nonneg
        intro w hw''
        obtain ⟨v, hv, rfl⟩ := List.mem_map.mp hw''
        exact hw v (List.mem_filter.mp hv).1
      linarith
    have hup : Np.wsum q xs ≤ weightWhere xs fun x => FV.le x edges[i + 1] = true := by
      have e := wsum_sub hqup xs
      have : 0 ≤ Np.wsum (fun x => FV.le x edges[i + 1] && !q x) xs := by
        apply List.sum_nonneg
        intro w hw''
        obtain ⟨v, hv, rfl⟩ := List.mem_map.mp hw''
        exact hw v (List.mem_filter.mp hv).1
      have e2 : (weightWhere xs fun x => FV.le x edges[i + 1] = true) = Np.wsum (fun x => FV.le x edges[i + 1]) xs := by
        unfold weightWhere Np.wsum
        congr 2
        apply List.filter_congr
        intro v _
        simp
      rw [e2]
      linarith
    rw [← hdiff]
    set c1 := cumBy R q blocks with hc1
    set c0 := cumBy R (fun x => FV.lt x edges[i]) blocks with hc0'
    set C1 := Np.wsum q xs with hC1
    set C0 := Np.wsum (fun x => FV.lt x edges[i]) xs with hC0
    set U := weightWhere xs fun x => FV.le x edges[i + 1] = true with hU
    have a1 := near_abs R n1 (by linarith)
    have a0 := near_abs R n0 W0
    have ar := R.close (c1 - c0)
    rw [abs_of_nonneg (by linarith : 0 ≤ c1 - c0)] at ar
    have hu := R.u_nonneg
    have hN1 := (pow_bounds R N).2.2
    have hc1le := n1.2
    have tri : |R.sub c1 c0 - (C1 - C0)| ≤ |R.rd (c1 - c0) - (c1 - c0)| + (|c1 - C1| + |c0 - C0|) := by
      have e : R.sub c1 c0 - (C1 - C0) = (R.rd (c1 - c0) - (c1 - c0)) + ((c1 - C1) - (c0 - C0)) := by unfold Rounding.sub; ring
      rw [e]
      refine (abs_add_le _ _).trans (add_le_add le_rfl ?_)
      exact abs_sub _ _
    refine tri.trans ?_
    rw [pow_succ]
    set P := (1 + R.u) ^ N with hP
    have g1 : |R.rd (c1 - c0) - (c1 - c0)| ≤ R.u * (P * C1) := by
      refine ar.trans (mul_le_mul_of_nonneg_left ?_ hu)
      linarith
    have g2 : R.u * (P * C1) + ((P - 1) * C1 + (P - 1) * C0) ≤ (P * (1 + R.u) - 1) * (2 * C1) := by
      have : 0 ≤ R.u * P * C1 := mul_nonneg (mul_nonneg hu (by linarith)) (by linarith)
      nlinarith [mul_nonneg (by linarith : 0 ≤ P - 1) (by linarith : 0 ≤ C1 - C0)]
    have g3 : (P * (1 + R.u) - 1) * (2 * C1) ≤ (P * (1 + R.u) - 1) * (2 * U) := by
      apply mul_le_mul_of_nonneg_left (by linarith)
      nlinarith
    linarith

/-- **C143** By contrast a cell of `background_2d` only depends on the events in the cell, with a relative error of at most one rounding per event of the cell; it is 0 exactly if all of them have weight 0. -/
theorem C143_bincount {α : Type*} (inCell : α → Bool) (weight : α → ℝ) (events : List α) (hw : ∀ e ∈ events, 0 ≤ weight e) :
    Near R (events.filter inCell).length (bincountCell R inCell weight events) ((events.filter inCell).map weight).sum ∧
    (bincountCell R inCell weight events = 0 ↔ ∀ e ∈ events, inCell e = true → weight e = 0) := by
  have hw' : ∀ w ∈ (events.filter inCell).map weight, 0 ≤ w := by
    intro w hw''
    obtain ⟨v, hv, rfl⟩ := List.mem_map.mp hw''
    exact hw v (List.mem_filter.mp hv).1
  have hn := seqSum_near R _ hw'
  rw [List.length_map] at hn
  refine ⟨hn, ?_⟩
  have hs := List.sum_nonneg hw'
  have hp := (pow_bounds R (events.filter inCell).length)
  have h0 : bincountCell R inCell weight events = 0 ↔ ((events.filter inCell).map weight).sum = 0 := by
    constructor
    · intro he
      have h1 := hn.1
      have h2 : seqSum R ((events.filter inCell).map weight) = 0 := he
      rw [h2] at h1
      nlinarith [hp.1]
    · intro he
      have h1 := hn.2
      have h3 := (seqSum_is R _ hw').2
      rw [he, mul_zero] at h1
      exact le_antisymm h1 h3
  rw [h0]
  constructor
  · intro he e hm hin
    have h1 : weight e ∈ (events.filter inCell).map weight := List.mem_map_of_mem (List.mem_filter.mpr ⟨hm, hin⟩)
    have h2 := List.single_le_sum hw' _ h1
    exact le_antisymm (by linarith) (hw e hm)
  · intro hall
    apply List.sum_eq_zero
    intro w hw''
    obtain ⟨v, hv, rfl⟩ := List.mem_map.mp hw''
    exact hall v (List.mem_filter.mp hv).1 (List.mem_filter.mp hv).2

/-- **C143** The scaling of `estimate_background` keeps this: not negative, 0 for 0, and larger for larger contents. -/
theorem C143_estimate_background (n m sizeRatio alpha : ℝ) (h0 : 0 ≤ n) (hnm : n ≤ m) (hs : 0 ≤ sizeRatio) (ha : 0 < alpha) :
    0 ≤ scaleBackground R n sizeRatio alpha ∧ scaleBackground R n sizeRatio alpha ≤ scaleBackground R m sizeRatio alpha ∧ scaleBackground R 0 sizeRatio alpha = 0 := by
  unfold scaleBackground Rounding.div Rounding.mul
  refine ⟨R.nonneg (div_nonneg (R.nonneg (mul_nonneg h0 hs)) ha.le), R.mono ?_, ?_⟩
  · have := R.mono (mul_le_mul_of_nonneg_right hnm hs)
    gcongr
  · rw [zero_mul, R.zero, zero_div, R.zero]

/-- **C143** (deviation) The error bound cannot be made relative to the bin: with `p` bits a bin that holds one event of weight 1/2 gets weight 0 if there is an event of weight `2^p` in the bin below. -/
theorem C143_cancellation (p : ℕ) (hp : 1 ≤ p) : histogram (Rounding.binary p hp) [.fin 0, .fin 1, .fin 2] [[(.fin (1 / 2), 2 ^ p), (.fin (3 / 2), 1 / 2)]] = [2 ^ p, 0] := by
  set R := Rounding.binary p hp with hR
  have hnat : R.rd ((2 : ℝ) ^ p) = 2 ^ p := by
    have := R.nat (2 ^ p) le_rfl
    push_cast at this
    exact this
  have hadd : R.rd ((2 : ℝ) ^ p + 1 / 2) = 2 ^ p := by
    have hpos : (0 : ℝ) < 2 ^ p + 1 / 2 := by positivity
    have h1 : R.rd ((2 : ℝ) ^ p + 1 / 2) = Binary.rdPos p (2 ^ p + 1 / 2) := Binary.rd_of_pos p hpos
    rw [h1]
    have hlog : Int.log 2 ((2 : ℝ) ^ p + 1 / 2) = p := by
      have hone : (1 : ℝ) ≤ 2 ^ p := one_le_pow₀ (by norm_num)
      apply le_antisymm
      · rw [← Int.lt_add_one_iff]
        have := Binary.log_le hpos
        have h2 : (2 : ℝ) ^ (Int.log 2 ((2 : ℝ) ^ p + 1 / 2)) < 2 ^ ((p : ℤ) + 1) := by
          refine lt_of_le_of_lt this ?_
          rw [zpow_add₀ (by norm_num), zpow_natCast, zpow_one]
          linarith
        exact (zpow_lt_zpow_iff_right₀ (by norm_num)).mp h2
      · have h2 : (2 : ℝ) ^ (p : ℤ) < 2 ^ (Int.log 2 ((2 : ℝ) ^ p + 1 / 2) + 1) := by
          refine lt_trans ?_ Binary.lt_log
          rw [zpow_natCast]
          linarith
        have := (zpow_lt_zpow_iff_right₀ (show (1 : ℝ) < 2 by norm_num)).mp h2
        omega
    have hulp : Binary.ulp p ((2 : ℝ) ^ p + 1 / 2) = 2 := by
      unfold Binary.ulp
      rw [hlog]
      norm_num
    unfold Binary.rdPos
    rw [hulp]
    obtain ⟨q, rfl⟩ : ∃ q, p = q + 1 := ⟨p - 1, by omega⟩
    have : ⌊((2 : ℝ) ^ (q + 1) + 1 / 2) / 2 + 1 / 2⌋ = 2 ^ q := by
      rw [Int.floor_eq_iff]
      push_cast
      rw [pow_succ]
      constructor <;> linarith
    rw [this]
    push_cast
    rw [pow_succ]
  have z : R.rd 0 = 0 := R.zero
  simp only [histogram, histCum, List.dropLast, List.getLast?, List.map_cons, List.map_nil, cumLeft, cumRight, List.takeWhile, FV.sortLt, FV.lt, seqSum, List.foldl_cons, List.foldl_nil,
    Option.toList, List.getLast, List.cons_append, List.nil_append, List.tail_cons, List.zipWith_cons_cons, List.zipWith_nil_right, Rounding.add, Rounding.sub]
  have a1 : R.add 0 (2 ^ p) = 2 ^ p := by unfold Rounding.add; rw [zero_add, hnat]
  have a2 : R.add (2 ^ p) (1 / 2) = 2 ^ p := hadd
  norm_num [z, hnat, hadd, a1]
  rw [show R.add (2 ^ p) (1 / 2) = 2 ^ p from hadd, hnat, sub_self, z]

/-! ## The hypotheses can be met -/

/-- Two blocks of events, each sorted; some events are outside of the bins or have value NaN. -/
example : SortedBlocks [(.fin 3, 1), (.fin (1/2), 2), (.nan, 5), (.fin (3/2), 1/3), (.fin (-1), 4)] [[(.fin (1/2), 2), (.fin 3, 1), (.nan, 5)], [(.fin (-1), 4), (.fin (3/2), 1/3)]] := by
  refine ⟨?_, ?_⟩
  · simp only [List.flatten_cons, List.flatten_nil, List.append_nil, List.cons_append, List.nil_append]
    refine (List.Perm.swap _ _ _).trans ?_
    refine List.Perm.cons _ (List.Perm.cons _ (List.Perm.cons _ (List.Perm.swap _ _ _)))
  · intro b hb
    simp only [List.mem_cons, List.not_mem_nil, or_false] at hb
    rcases hb with rfl | rfl <;> simp [FV.sortLt, FV.lt] <;> norm_num

/-- binary64 -/
noncomputable example : Rounding := Rounding.binary 53 (by norm_num)

end Pyirf.Rounded
