import Verif.Io.HeaderModel
import Verif.Io.GadfProps

/-!
# C141: the headers of HDUs do not depend on the history of the session
-/
set_option linter.unusedSectionVars false
set_option linter.unusedSimpArgs false

namespace Pyirf.Io
open Pyirf Pyirf.Np

/-! ## Specification -/

/-- The header a call gives when it is the first one of the session: the default header, the cards of the function, the user's cards, the extension name. -/
def aloneHeader (D : Header) (c : HCall) : Header :=
  let h := ((c.kind.cards c.now).1 ++ c.cards).foldl (fun h x => put h x.1 x.2) D
  if c.extname = "" then h else put h "EXTNAME" (.str (upper c.extname))

/-- Does the call give an HDU? -/
def Succeeds (c : HCall) : Prop := c.early = .ok () ∧ (c.kind.cards c.now).2 = .ok ()

instance (c : HCall) : Decidable (Succeeds c) := by
  unfold Succeeds
  have h : ∀ x : Except Err Unit, Decidable (x = .ok ()) := fun x => match x with
    | .ok () => isTrue rfl
    | .error e => isFalse (by simp)
  have := h c.early
  have := h (c.kind.cards c.now).2
  exact instDecidableAnd

/-- What the caller expects of a step: a successful call adds the header that it gives alone, a write changes the one header. -/
def expectedStep (D : Header) (hs : List Header) : HStep → List Header
  | .call c => if Succeeds c then hs ++ [aloneHeader D c] else hs
  | .write i card => hs.modify i (fun h => put h card.1 card.2)

/-- What the caller expects of a history: the headers of the HDUs made, as values. -/
def expected (D : Header) (steps : List HStep) : List Header := steps.foldl (expectedStep D) []

/-! ## Lemmas -/

theorem foldl_setItem (cards : List (String × HVal)) (s : Session) (r : ℕ) :
    (cards.foldl (fun s x => s.setItem r x) s).next = s.next ∧
    ∀ r', (cards.foldl (fun s x => s.setItem r x) s).obj r' = if r' = r then cards.foldl (fun h x => put h x.1 x.2) (s.obj r) else s.obj r' := by
  induction cards generalizing s with
  | nil =>
    refine ⟨rfl, fun r' => ?_⟩
    by_cases h : r' = r
    · subst h; simp
    · simp [h]
  | cons c cards ih =>
    obtain ⟨h1, h2⟩ := ih (s.setItem r c)
    refine ⟨h1, fun r' => ?_⟩
    rw [List.foldl_cons, h2]
    by_cases h : r' = r
    · subst h
      simp [Session.setItem]
    · simp [h, Session.setItem]

/-- a call: old objects stay, the new one has the header of the call alone -/
theorem create_spec (s : Session) (c : HCall) (hpos : DEFAULT < s.next) :
    s.next ≤ (s.create c).1.next ∧ (∀ r < s.next, (s.create c).1.obj r = s.obj r) ∧
    (Succeeds c → ∃ r, (s.create c).2 = .ok r ∧ s.next ≤ r ∧ r < (s.create c).1.next ∧ (s.create c).1.obj r = aloneHeader (s.obj DEFAULT) c) ∧
    (¬ Succeeds c → ∃ e, (s.create c).2 = .error e) := by
  unfold Session.create Succeeds aloneHeader
  cases he : c.early with
  | error e => exact ⟨le_rfl, fun _ _ => rfl, (by rintro ⟨h, -⟩; cases h), fun _ => ⟨e, rfl⟩⟩
  | ok u =>
    simp only
    obtain ⟨n1, o1⟩ := foldl_setItem (c.kind.cards c.now).1 (s.copy DEFAULT).1 (s.copy DEFAULT).2
    set s1 := (c.kind.cards c.now).1.foldl (fun (s' : Session) x => s'.setItem (s.copy DEFAULT).2 x) (s.copy DEFAULT).1 with hs1
    have hn : (s.copy DEFAULT).1.next = s.next + 1 := rfl
    have hr : (s.copy DEFAULT).2 = s.next := rfl
    have ho : ∀ r, (s.copy DEFAULT).1.obj r = if r = s.next then s.obj DEFAULT else s.obj r := fun _ => rfl
    cases hk : (c.kind.cards c.now).2 with
    | error e =>
      refine ⟨by simp only; omega, fun r hr' => ?_, (by rintro ⟨-, h⟩; cases h), fun _ => ⟨e, rfl⟩⟩
      simp only
      rw [o1, hr, if_neg (by omega), ho, if_neg (by omega)]
    | ok u' =>
      simp only
      obtain ⟨n2, o2⟩ := foldl_setItem c.cards s1 (s.copy DEFAULT).2
      set s2 := c.cards.foldl (fun (s' : Session) x => s'.setItem (s.copy DEFAULT).2 x) s1 with hs2
      have hnext : s2.next = s.next + 1 := by omega
      have hobj : ∀ r < s.next, s2.obj r = s.obj r := by
        intro r hr'
        rw [o2, hr, if_neg (by omega), o1, hr, if_neg (by omega), ho, if_neg (by omega)]
      have hval : s2.obj s.next = ((c.kind.cards c.now).1 ++ c.cards).foldl (fun h x => put h x.1 x.2) (s.obj DEFAULT) := by
        rw [o2, hr, if_pos rfl, o1, hr, if_pos rfl, ho, if_pos rfl, List.foldl_append]
      have hb : ∀ r, (s2.copy (s.copy DEFAULT).2).1.obj r = if r = s2.next then s2.obj s.next else s2.obj r := fun _ => rfl
      have hbr : (s2.copy (s.copy DEFAULT).2).2 = s2.next := rfl
      have hbn : (s2.copy (s.copy DEFAULT).2).1.next = s2.next + 1 := rfl
      by_cases hx : c.extname = ""
      · simp only [if_pos hx]
        refine ⟨by omega, fun r hr' => ?_, fun _ => ⟨_, rfl, by omega, by omega, ?_⟩, fun h => absurd (And.intro trivial trivial) h⟩
        · rw [hb, if_neg (by omega), hobj r hr']
        · rw [hbr, hb, if_pos rfl, hval]
      · simp only [if_neg hx]
        refine ⟨by show s.next ≤ (s2.copy (s.copy DEFAULT).2).1.next; omega, fun r hr' => ?_, fun _ => ⟨_, rfl, by omega, by show _ < (s2.copy (s.copy DEFAULT).2).1.next; omega, ?_⟩,
          fun h => absurd (And.intro trivial trivial) h⟩
        · show (if r = _ then _ else _) = _
          rw [if_neg (by rw [hbr]; omega), hb, if_neg (by omega), hobj r hr']
        · show (if _ = _ then _ else _) = _
          rw [if_pos rfl, hbr, hb, if_pos rfl, hval]

/-! ## C141 -/

theorem history_inv (s : Session) (hpos : DEFAULT < s.next) (steps : List HStep) :
    DEFAULT < (runHistory s steps).1.next ∧ (runHistory s steps).1.obj DEFAULT = s.obj DEFAULT ∧
    (∀ r ∈ (runHistory s steps).2, DEFAULT < r ∧ r < (runHistory s steps).1.next) ∧ (runHistory s steps).2.Nodup ∧
    (runHistory s steps).2.map (runHistory s steps).1.obj = expected (s.obj DEFAULT) steps := by
  induction steps using List.reverseRecOn with
  | nil => exact ⟨hpos, rfl, (fun r hr => by cases hr), List.nodup_nil, rfl⟩
  | append_singleton steps st ih =>
    obtain ⟨i1, i2, i3, i4, i5⟩ := ih
    have hrun : runHistory s (steps ++ [st]) = st.run (runHistory s steps) := by unfold runHistory; rw [List.foldl_append]; rfl
    have hexp : expected (s.obj DEFAULT) (steps ++ [st]) = expectedStep (s.obj DEFAULT) (expected (s.obj DEFAULT) steps) st := by
      unfold expected; rw [List.foldl_append]; rfl
    rw [hrun, hexp]
    generalize runHistory s steps = p at *
    obtain ⟨w, refs⟩ := p
    simp only at i1 i2 i3 i4 i5
    cases st with
    | call c =>
      obtain ⟨c1, c2, c3, c4⟩ := create_spec w c i1
      have hmap : refs.map (w.create c).1.obj = expected (s.obj DEFAULT) steps := by
        rw [← i5]
        apply List.map_congr_left
        intro r hr
        exact c2 r (i3 r hr).2
      by_cases hs : Succeeds c
      · obtain ⟨r, e1, e2, e3, e4⟩ := c3 hs
        have hst : HStep.run (w, refs) (.call c) = ((w.create c).1, refs ++ [r]) := by
          unfold HStep.run
          simp only
          rw [show w.create c = ((w.create c).1, .ok r) from Prod.ext rfl e1]
        rw [hst]
        show _ ∧ _ ∧ _ ∧ _ ∧ _ = (if Succeeds c then _ else _)
        rw [if_pos hs]
        refine ⟨by show DEFAULT < (w.create c).1.next; omega, (c2 _ i1).trans i2, ?_, ?_, ?_⟩
        · intro r' hr'
          rcases List.mem_append.mp hr' with h | h
          · have := i3 r' h; exact ⟨this.1, lt_of_lt_of_le this.2 c1⟩
          · rw [List.mem_singleton] at h; subst h; exact ⟨lt_of_lt_of_le i1 e2, e3⟩
        · rw [List.nodup_append]
          refine ⟨i4, by simp, ?_⟩
          intro a ha b hb
          rw [List.mem_singleton] at hb
          have := (i3 a ha).2
          omega
        · rw [List.map_append, hmap, ← i2, List.map_singleton, e4]
      · obtain ⟨e, e1⟩ := c4 hs
        have hst : HStep.run (w, refs) (.call c) = ((w.create c).1, refs) := by
          unfold HStep.run
          simp only
          rw [show w.create c = ((w.create c).1, .error e) from Prod.ext rfl e1]
        rw [hst]
        show _ ∧ _ ∧ _ ∧ _ ∧ _ = (if Succeeds c then _ else _)
        rw [if_neg hs]
        refine ⟨by show DEFAULT < (w.create c).1.next; omega, (c2 _ i1).trans i2, ?_, i4, hmap⟩
        intro r' hr'
        exact ⟨(i3 r' hr').1, lt_of_lt_of_le (i3 r' hr').2 c1⟩
    | write i card =>
      unfold HStep.run expectedStep
      simp only
      cases hi : refs[i]? with
      | none =>
        simp only
        refine ⟨i1, i2, i3, i4, ?_⟩
        rw [← i5, List.modify_eq_self]
        rw [List.length_map]
        exact List.getElem?_eq_none_iff.mp hi
      | some r =>
        simp only
        have hmem : r ∈ refs := List.mem_of_getElem? hi
        obtain ⟨hr1, hr2⟩ := i3 r hmem
        refine ⟨i1, ?_, i3, i4, ?_⟩
        · show (if DEFAULT = r then _ else _) = _
          rw [if_neg (by omega)]; exact i2
        · rw [← i5]
          apply List.ext_getElem?
          intro j
          rw [List.getElem?_modify, List.getElem?_map, List.getElem?_map]
          by_cases hj : j = i
          · subst hj
            rw [hi]
            simp [Session.setItem]
          · have hij : i ≠ j := fun h => hj h.symm
            cases hj' : refs[j]? with
            | none => rfl
            | some r' =>
              have hne : r' ≠ r := by
                rintro rfl
                have h1 := List.getElem?_eq_some_iff.mp hi
                have h2 := List.getElem?_eq_some_iff.mp hj'
                obtain ⟨l1, h1⟩ := h1
                obtain ⟨l2, h2⟩ := h2
                exact hj ((List.Nodup.getElem_inj_iff i4).mp (h2.trans h1.symm))
              simp [Session.setItem, hne, hij]

/-- **C141** For every history of calls of the `create_*_hdu` functions (also failing ones) and of writes into the headers of the HDUs made, the headers at the end are, HDU by HDU, what that call gives alone in a new session,
changed by the writes into that header only. `DEFAULT_HEADER` stays as it was. -/
theorem C141_history (ctx : Ctx) (steps : List HStep) :
    (runHistory (imported ctx) steps).2.map (runHistory (imported ctx) steps).1.obj = expected (defaultHeader ctx) steps ∧
    (runHistory (imported ctx) steps).1.obj DEFAULT = defaultHeader ctx := by
  have h := history_inv (imported ctx) (by show 0 < 1; omega) steps
  exact ⟨h.2.2.2.2, h.2.1⟩

/-- **C141** Which calls give an HDU, as far as headers are concerned: all whose arguments pass the checks of units and shapes, for the three-dimensional background only those with alignment ALTAZ or RADEC. -/
theorem C141_succeeds (c : HCall) : Succeeds c ↔ c.early = .ok () ∧ ∀ a, c.kind = .bkg3d a → a = "ALTAZ" ∨ a = "RADEC" := by
  unfold Succeeds Kind.cards
  cases hk : c.kind with
  | bkg3d a =>
    simp only
    constructor
    · rintro ⟨h1, h2⟩
      refine ⟨h1, fun b hb => ?_⟩
      cases hb
      by_cases ha : a ∈ ["ALTAZ", "RADEC"]
      · simpa using ha
      · rw [if_neg ha] at h2; cases h2
    · rintro ⟨h1, h2⟩
      have ha : a ∈ ["ALTAZ", "RADEC"] := by simpa using h2 a rfl
      exact ⟨h1, by rw [if_pos ha]⟩
  | _ => simp

section link
variable {K : Type} [Field K] [LinearOrder K]

theorem upper_lits : upper "HDUCLAS1" = "HDUCLAS1" ∧ upper "HDUCLAS2" = "HDUCLAS2" ∧ upper "HDUCLAS3" = "HDUCLAS3" ∧ upper "HDUCLAS4" = "HDUCLAS4" ∧ upper "DATE" = "DATE" ∧ upper "CREF5" = "CREF5" ∧ upper "CREF7" = "CREF7" ∧ upper "FOVALIGN" = "FOVALIGN" :=
  ⟨rfl, rfl, rfl, rfl, rfl, rfl, rfl, rfl⟩

theorem cref5 : "CREF" ++ Nat.repr 5 = "CREF5" := by decide
theorem cref7 : "CREF" ++ Nat.repr 7 = "CREF7" := by decide

theorem alone_eq (ctx : Ctx) (kind : Kind) (table : List (TCol K)) (fixed : Header) (hf : (kind.cards ctx.now).1.foldl (fun h x => put h x.1 x.2) (defaultHeader ctx) = fixed) :
    (binTableHDU ctx table (addHeaderCards fixed ctx.cards)).header = aloneHeader (defaultHeader ctx) ⟨kind, .ok (), ctx.now, ctx.extname, ctx.cards⟩ := by
  unfold binTableHDU aloneHeader
  simp only
  rw [List.foldl_append, hf]
  rfl

/-- **C141** The header that a call gives alone is the one of the HDU that C67 describes, for all six functions. -/
theorem C141_alone (c : Consts K) (ctx : Ctx) (x : Arg K (ND (FV K))) (eb xb yb : Arg K (List (FV K))) (pointLike : Bool) (alignment : String) :
    (∀ h, createAeff2dHdu c ctx x eb xb pointLike = .ok h → h.header = aloneHeader (defaultHeader ctx) ⟨.aeff pointLike, .ok (), ctx.now, ctx.extname, ctx.cards⟩) ∧
    (∀ h, createPsfTableHdu c ctx x eb xb yb = .ok h → h.header = aloneHeader (defaultHeader ctx) ⟨.psf, .ok (), ctx.now, ctx.extname, ctx.cards⟩) ∧
    (∀ h, createEnergyDispersionHdu c ctx x eb xb yb pointLike = .ok h → h.header = aloneHeader (defaultHeader ctx) ⟨.edisp pointLike, .ok (), ctx.now, ctx.extname, ctx.cards⟩) ∧
    (∀ h, createBackground2dHdu c ctx x eb xb = .ok h → h.header = aloneHeader (defaultHeader ctx) ⟨.bkg2d, .ok (), ctx.now, ctx.extname, ctx.cards⟩) ∧
    (∀ h, createBackground3dHdu c ctx x eb xb yb alignment = .ok h → h.header = aloneHeader (defaultHeader ctx) ⟨.bkg3d alignment, .ok (), ctx.now, ctx.extname, ctx.cards⟩) ∧
    (∀ h, createRadMaxHdu c ctx x eb xb pointLike = .ok h → h.header = aloneHeader (defaultHeader ctx) ⟨.radMax pointLike, .ok (), ctx.now, ctx.extname, ctx.cards⟩) := by
  obtain ⟨u1, u2, u3, u4, u5, u6, u7, u8⟩ := upper_lits
  refine ⟨fun h hok => ?_, fun h hok => ?_, fun h hok => ?_, fun h hok => ?_, fun h hok => ?_, fun h hok => ?_⟩
  · unfold createAeff2dHdu at hok
    generalize hP : HVal.str (if pointLike = true then "POINT-LIKE" else "FULL-ENCLOSURE") = P at hok
    simp only [bind, Except.bind, pure, Except.pure] at hok
    repeat (split at hok <;> first | (cases hok; done) | skip)
    cases hok
    subst hP
    refine alone_eq ctx (.aeff pointLike) _ _ ?_
    simp only [Kind.cards, List.foldl_cons, List.foldl_nil, put, u1, u2, u3, u4, u5, u6, u7]
    simp [colnamesIndex, loHi, List.idxOf_cons, cref5, cref7]
  · unfold createPsfTableHdu at hok
    simp only [bind, Except.bind, pure, Except.pure] at hok
    repeat (split at hok <;> first | (cases hok; done) | skip)
    cases hok
    refine alone_eq ctx (.psf) _ _ ?_
    simp only [Kind.cards, List.foldl_cons, List.foldl_nil, put, u1, u2, u3, u4, u5, u6, u7]
    simp [colnamesIndex, loHi, List.idxOf_cons, cref5, cref7]
  · unfold createEnergyDispersionHdu at hok
    generalize hP : HVal.str (if pointLike = true then "POINT-LIKE" else "FULL-ENCLOSURE") = P at hok
    simp only [bind, Except.bind, pure, Except.pure] at hok
    repeat (split at hok <;> first | (cases hok; done) | skip)
    cases hok
    subst hP
    refine alone_eq ctx (.edisp pointLike) _ _ ?_
    simp only [Kind.cards, List.foldl_cons, List.foldl_nil, put, u1, u2, u3, u4, u5, u6, u7]
    simp [colnamesIndex, loHi, List.idxOf_cons, cref5, cref7]
  · unfold createBackground2dHdu at hok
    simp only [bind, Except.bind, pure, Except.pure] at hok
    repeat (split at hok <;> first | (cases hok; done) | skip)
    cases hok
    refine alone_eq ctx (.bkg2d) _ _ ?_
    simp only [Kind.cards, List.foldl_cons, List.foldl_nil, put, u1, u2, u3, u4, u5, u6, u7]
    simp [colnamesIndex, loHi, List.idxOf_cons, cref5, cref7]
  · unfold createBackground3dHdu at hok
    simp only [bind, Except.bind, pure, Except.pure] at hok
    by_cases ha : alignment ∈ ["ALTAZ", "RADEC"]
    · simp only [if_pos ha] at hok
      repeat (split at hok <;> first | (cases hok; done) | skip)
      cases hok
      refine alone_eq ctx (.bkg3d alignment) _ _ ?_
      simp only [Kind.cards, if_pos ha, List.foldl_cons, List.foldl_nil, put, u1, u2, u3, u4, u5, u6, u7, u8]
      simp [colnamesIndex, loHi, List.idxOf_cons, cref5, cref7]
    · simp only [if_neg ha] at hok
      repeat (split at hok <;> first | (cases hok; done) | skip)
  · unfold createRadMaxHdu at hok
    simp only [bind, Except.bind, pure, Except.pure] at hok
    repeat (split at hok <;> first | (cases hok; done) | skip)
    cases hok
    refine alone_eq ctx (.radMax pointLike) _ _ ?_
    simp only [Kind.cards, List.foldl_cons, List.foldl_nil, put, u1, u2, u3, u4, u5, u6, u7]
    simp [colnamesIndex, loHi, List.idxOf_cons, cref5, cref7]

/-! ## Comments -/

/-- Comments can occur many times: those of the header are the user's ones, all of them, in their order. -/
def KeepsComments (ctx : Ctx) (header : Header) : Prop :=
  ∀ key ∈ ["COMMENT", "HISTORY", ""], (header.filter fun x => x.1 == key).map Prod.snd = (ctx.cards.filter fun x => upper x.1 == key).map Prod.snd

theorem filter_putUpper (h : Header) (k key : String) (v : HVal) (hk : key ∈ ["COMMENT", "HISTORY", ""]) :
    ((putUpper h k v).filter fun x => x.1 == key).map Prod.snd = (h.filter fun x => x.1 == key).map Prod.snd ++ (if k = key then [v] else []) := by
  unfold putUpper
  by_cases hc : k ∈ commentary
  · rw [if_pos hc]
    by_cases hkk : k = key <;> simp [hkk]
  · have hne : k ≠ key := by rintro rfl; exact hc hk
    rw [if_neg hc]
    by_cases ha : h.any (fun c => c.1 == k) = true
    · rw [if_pos ha, if_neg hne, List.append_nil]
      clear ha
      simp only [beq_iff_eq]
      induction h with
      | nil => rfl
      | cons c h ih =>
        rw [List.map_cons, List.filter_cons, List.filter_cons]
        by_cases hck : c.1 = k
        · simp only [hck, beq_self_eq_true, if_true, beq_iff_eq, hne, if_false] at ih ⊢
          exact ih
        · simp only [hck, if_false]
          by_cases hk2 : c.1 = key
          · simp only [hk2, beq_self_eq_true, if_true, List.map_cons, beq_iff_eq] at ih ⊢
            exact congrArg _ ih
          · simp only [beq_iff_eq, hk2, if_false] at ih ⊢
            exact ih
    · rw [if_neg ha, if_neg hne, List.append_nil]
      simp [hne]

theorem filter_puts (cards : List (String × HVal)) (h : Header) (key : String) (hk : key ∈ ["COMMENT", "HISTORY", ""]) :
    ((cards.foldl (fun h x => put h x.1 x.2) h).filter fun x => x.1 == key).map Prod.snd = (h.filter fun x => x.1 == key).map Prod.snd ++ (cards.filter fun x => upper x.1 == key).map Prod.snd := by
  induction cards generalizing h with
  | nil => simp
  | cons c cards ih =>
    rw [List.foldl_cons, ih, put, filter_putUpper _ _ _ _ hk, List.filter_cons]
    by_cases hc : upper c.1 = key <;> simp [hc]

theorem alone_comments (ctx : Ctx) (k : Kind) : KeepsComments ctx (aloneHeader (defaultHeader ctx) ⟨k, .ok (), ctx.now, ctx.extname, ctx.cards⟩) := by
  intro key hk
  have hd : ((defaultHeader ctx).filter fun x => x.1 == key) = [] := by
    simp only [List.mem_cons, List.not_mem_nil, or_false] at hk
    rcases hk with rfl | rfl | rfl <;> rfl
  have hf : ((k.cards ctx.now).1.filter fun x => upper x.1 == key) = [] := by
    have hall : ∀ x ∈ (k.cards ctx.now).1, upper x.1 ∉ ["COMMENT", "HISTORY", ""] := by
      have h0 : ∀ x ∈ (k.cards ctx.now).1, x.1 ∈ ["HDUCLAS1", "HDUCLAS2", "HDUCLAS3", "HDUCLAS4", "DATE", "CREF5", "CREF7", "FOVALIGN"] := by
        intro x hx
        unfold Kind.cards at hx
        cases k <;> simp only at hx <;> (try split at hx) <;> simp only [List.mem_cons, List.not_mem_nil, or_false] at hx <;>
          (rcases hx with rfl | rfl | rfl | rfl | rfl | rfl | rfl | rfl) <;> simp
      have h1 : ∀ s ∈ ["HDUCLAS1", "HDUCLAS2", "HDUCLAS3", "HDUCLAS4", "DATE", "CREF5", "CREF7", "FOVALIGN"], upper s ∉ ["COMMENT", "HISTORY", ""] := by decide
      exact fun x hx => h1 _ (h0 x hx)
    rw [List.filter_eq_nil_iff]
    intro x hx he
    exact hall x hx (by rw [eq_of_beq he]; exact hk)
  have main : (((((k.cards ctx.now).1 ++ ctx.cards).foldl (fun h x => put h x.1 x.2) (defaultHeader ctx))).filter fun x => x.1 == key).map Prod.snd = (ctx.cards.filter fun x => upper x.1 == key).map Prod.snd := by
    rw [filter_puts _ _ _ hk, hd, List.filter_append, hf]
    rfl
  unfold aloneHeader
  simp only
  split
  · exact main
  · rw [put, filter_putUpper _ _ _ _ hk, main, if_neg, List.append_nil]
    intro he
    have hu : upper "EXTNAME" = "EXTNAME" := rfl
    rw [hu] at he
    subst he
    revert hk
    decide

/-- **C67** `COMMENT` and `HISTORY` cards given by the user are all in the header, in their order, and no others. -/
theorem C67_commentary (c : Consts K) (ctx : Ctx) (x : Arg K (ND (FV K))) (eb xb yb : Arg K (List (FV K))) (pointLike : Bool) (alignment : String) :
    (∀ h, createAeff2dHdu c ctx x eb xb pointLike = .ok h → KeepsComments ctx h.header) ∧
    (∀ h, createPsfTableHdu c ctx x eb xb yb = .ok h → KeepsComments ctx h.header) ∧
    (∀ h, createEnergyDispersionHdu c ctx x eb xb yb pointLike = .ok h → KeepsComments ctx h.header) ∧
    (∀ h, createBackground2dHdu c ctx x eb xb = .ok h → KeepsComments ctx h.header) ∧
    (∀ h, createBackground3dHdu c ctx x eb xb yb alignment = .ok h → KeepsComments ctx h.header) ∧
    (∀ h, createRadMaxHdu c ctx x eb xb pointLike = .ok h → KeepsComments ctx h.header) := by
  obtain ⟨h1, h2, h3, h4, h5, h6⟩ := C141_alone c ctx x eb xb yb pointLike alignment
  exact ⟨fun h hh => h1 h hh ▸ alone_comments ctx _, fun h hh => h2 h hh ▸ alone_comments ctx _, fun h hh => h3 h hh ▸ alone_comments ctx _,
    fun h hh => h4 h hh ▸ alone_comments ctx _, fun h hh => h5 h hh ▸ alone_comments ctx _, fun h hh => h6 h hh ▸ alone_comments ctx _⟩

end link

/-! ## The hypotheses can be met -/

/-- Two effective areas, the first with a user card; then the caller writes into the first header. The second header has neither. -/
example : ∃ h1 h2, (expected (defaultHeader ⟨"0.13", "now", "", []⟩)
    [.call ⟨.aeff true, .ok (), "t1", "EFFECTIVE AREA", [("telescop", .str "LST")]⟩, .call ⟨.aeff true, .ok (), "t2", "EFFECTIVE AREA", []⟩, .write 0 ("INSTRUME", .str "x")]) = [h1, h2] ∧
    h1.get? "TELESCOP" = some (.str "LST") ∧ h1.get? "INSTRUME" = some (.str "x") ∧ h2.get? "TELESCOP" = none ∧ h2.get? "INSTRUME" = none ∧ h2.get? "DATE" = some (.str "t2") :=
  ⟨_, _, rfl, by decide, by decide, by decide, by decide, by decide⟩

end Pyirf.Io
