import Verif.Io.EventdisplayModel
import Mathlib.Data.Finset.Card
import Mathlib.Data.Finset.Prod
import Mathlib.Data.Finset.Dedup

/-!
# Properties of the EventDisplay reader: C71
-/
set_option linter.unusedSectionVars false
set_option linter.unusedSimpArgs false

namespace Pyirf.Io
open Pyirf Pyirf.Np Pyirf.Simulations
open Classical in
/-- The set of different (obs_id, pointing_az, pointing_alt) triples of the events. -/
noncomputable def triples (obsId az alt : List ℝ) : Finset (ℝ × ℝ × ℝ) := (obsId.zip (az.zip alt)).toFinset

/-- Column `name` of the table has these values. -/
def HasColumn (t : Cols) (name : String) (values : List ℝ) : Prop := (t.find? fun c => c.1 = name).map Prod.snd = some values

/-- No column `name`. -/
def NoColumn (t : Cols) (name : String) : Prop := ∀ c ∈ t, c.1 ≠ name

/-! ## Renaming -/

/-- what happens to one column -/
def renamed (m : List (String × String)) (c : String × List ℝ) : String × List ℝ :=
  match m.find? fun p => p.2 = c.1 with
  | none => c
  | some p => (p.1, c.2)

theorem renameColumn_ok (t : Cols) (old new : String) (h1 : old ∈ t.map Prod.fst) (h2 : new ∉ t.map Prod.fst) :
    renameColumn t old new = .ok (t.map fun c => if c.1 = old then (new, c.2) else c) := by
  unfold renameColumn; rw [if_pos h1, if_neg h2]

theorem mem_rename (t : Cols) (old new name : String) (h1 : name ≠ old) (h2 : name ≠ new) :
    name ∈ (t.map fun c => if c.1 = old then (new, c.2) else c).map Prod.fst ↔ name ∈ t.map Prod.fst := by
  simp only [List.mem_map]
  constructor
  · rintro ⟨c, ⟨d, hd, rfl⟩, rfl⟩
    by_cases e : d.1 = old
    · rw [if_pos e] at h1 h2; exact absurd rfl h2
    · rw [if_neg e]; exact ⟨d, hd, rfl⟩
  · rintro ⟨c, hc, rfl⟩
    exact ⟨c, ⟨c, hc, if_neg h1⟩, rfl⟩

theorem renameAll_eq (m : List (String × String)) (t : Cols) (ho : (m.map Prod.snd).Nodup) (hn : (m.map Prod.fst).Nodup)
    (hd : ∀ p ∈ m, ∀ q ∈ m, p.1 ≠ q.2) :
    ((∀ p ∈ m, p.2 ∈ t.map Prod.fst ∧ p.1 ∉ t.map Prod.fst) → renameAll m t = .ok (t.map (renamed m))) ∧
    (¬ (∀ p ∈ m, p.2 ∈ t.map Prod.fst ∧ p.1 ∉ t.map Prod.fst) → renameAll m t = .error .keyError) := by
  induction m generalizing t with
  | nil =>
    refine ⟨fun _ => ?_, fun h => absurd (by simp) h⟩
    rw [renameAll]
    congr 1
    conv_lhs => rw [← List.map_id t]
    rfl
  | cons p m ih =>
    rw [List.map_cons, List.nodup_cons] at ho hn
    by_cases hp : p.2 ∈ t.map Prod.fst ∧ p.1 ∉ t.map Prod.fst
    · have hr := renameColumn_ok t p.2 p.1 hp.1 hp.2
      obtain ⟨ih1, ih2⟩ := ih (t.map fun c => if c.1 = p.2 then (p.1, c.2) else c) ho.2 hn.2
        (fun a ha b hb => hd a (List.mem_cons_of_mem _ ha) b (List.mem_cons_of_mem _ hb))
      have hstep : renameAll (p :: m) t = renameAll m (t.map fun c => if c.1 = p.2 then (p.1, c.2) else c) := by
        rw [renameAll, hr]
      have x1 : ∀ q ∈ m, q.2 ≠ p.2 := fun q hq e => ho.1 (by rw [← e]; exact List.mem_map_of_mem hq)
      have x2 : ∀ q ∈ m, q.1 ≠ p.1 := fun q hq e => hn.1 (by rw [← e]; exact List.mem_map_of_mem hq)
      have x3 : ∀ q ∈ m, q.2 ≠ p.1 := fun q hq e => hd p (by simp) q (by simp [hq]) e.symm
      have x4 : ∀ q ∈ m, q.1 ≠ p.2 := fun q hq => hd q (by simp [hq]) p (by simp)
      have hiff : (∀ q ∈ p :: m, q.2 ∈ t.map Prod.fst ∧ q.1 ∉ t.map Prod.fst) ↔
          ∀ q ∈ m, q.2 ∈ (t.map fun c => if c.1 = p.2 then (p.1, c.2) else c).map Prod.fst ∧
            q.1 ∉ (t.map fun c => if c.1 = p.2 then (p.1, c.2) else c).map Prod.fst := by
        rw [List.forall_mem_cons]
        constructor
        · rintro ⟨_, h⟩ q hq
          rw [mem_rename _ _ _ _ (x1 q hq) (x3 q hq), mem_rename _ _ _ _ (x4 q hq) (x2 q hq)]
          exact h q hq
        · intro h
          refine ⟨hp, fun q hq => ?_⟩
          have := h q hq
          rwa [mem_rename _ _ _ _ (x1 q hq) (x3 q hq), mem_rename _ _ _ _ (x4 q hq) (x2 q hq)] at this
      rw [hstep, hiff]
      refine ⟨fun h => ?_, ih2⟩
      rw [ih1 h, List.map_map]
      congr 1
      apply List.map_congr_left
      intro c _
      rw [Function.comp_apply]
      by_cases hc : c.1 = p.2
      · rw [if_pos hc]
        have : m.find? (fun q => decide (q.2 = p.1)) = none := by
          rw [List.find?_eq_none]
          intro q hq
          simpa using fun e => hd p (by simp) q (by simp [hq]) e.symm
        simp [renamed, this, hc]
      · rw [if_neg hc]
        simp [renamed, List.find?_cons, Ne.symm hc]
    · have hr : renameColumn t p.2 p.1 = .error .keyError := by
        unfold renameColumn
        by_cases h1 : p.2 ∈ t.map Prod.fst
        · rw [if_pos h1, if_pos (by by_contra h2; exact hp ⟨h1, h2⟩)]
        · rw [if_neg h1]
      refine ⟨fun h => absurd (h p (by simp)) hp, fun _ => ?_⟩
      rw [renameAll, hr]

/-- The table can be renamed: all old names exist, no new name does. -/
def Renamable (t : Cols) : Prop := ∀ p ∈ columnMap, p.2 ∈ t.map Prod.fst ∧ p.1 ∉ t.map Prod.fst

theorem renameAll_columnMap (t : Cols) :
    (Renamable t → renameAll columnMap t = .ok (t.map (renamed columnMap))) ∧
    (¬ Renamable t → renameAll columnMap t = .error .keyError) :=
  renameAll_eq columnMap t (by decide) (by decide) (by decide)

theorem renamed_some {m : List (String × String)} (ho : (m.map Prod.snd).Nodup) {p : String × String} (hp : p ∈ m) (v : List ℝ) :
    renamed m (p.2, v) = (p.1, v) := by
  have : m.find? (fun q => decide (q.2 = p.2)) = some p := by
    induction m with
    | nil => simp at hp
    | cons q m ih =>
      rw [List.map_cons, List.nodup_cons] at ho
      rw [List.find?_cons]
      rcases List.mem_cons.mp hp with rfl | hp
      · simp
      · have : q.2 ≠ p.2 := fun e => ho.1 (e ▸ List.mem_map_of_mem hp)
        simp [this, ih ho.2 hp]
  simp [renamed, this]

theorem renamed_none {m : List (String × String)} {c : String × List ℝ} (h : c.1 ∉ m.map Prod.snd) : renamed m c = c := by
  have : m.find? (fun q => decide (q.2 = c.1)) = none := by
    rw [List.find?_eq_none]
    intro q hq
    have : q.2 ≠ c.1 := fun e => h (by rw [← e]; exact List.mem_map_of_mem hq)
    simpa using this
  simp [renamed, this]

theorem renamed_fst (c : String × List ℝ) :
    (∃ p ∈ columnMap, c.1 = p.2 ∧ (renamed columnMap c).1 = p.1) ∨
    (c.1 ∉ columnMap.map Prod.snd ∧ (renamed columnMap c).1 = c.1) := by
  by_cases h : c.1 ∈ columnMap.map Prod.snd
  · left
    obtain ⟨p, hp, he⟩ := List.mem_map.mp h
    refine ⟨p, hp, he.symm, ?_⟩
    have : renamed columnMap (p.2, c.2) = (p.1, c.2) := renamed_some (by decide) hp c.2
    have hc : c = (p.2, c.2) := by rw [he]
    rw [hc, this]
  · right
    exact ⟨h, by rw [renamed_none h]⟩

theorem renamed_snd (c : String × List ℝ) : (renamed columnMap c).2 = c.2 := by
  unfold renamed; split <;> rfl

theorem find?_renamed (t : Cols) (a b : String) (h : ∀ c ∈ t, (renamed columnMap c).1 = a ↔ c.1 = b) :
    ((t.map (renamed columnMap)).find? fun c => c.1 = a).map Prod.snd = (t.find? fun c => c.1 = b).map Prod.snd := by
  induction t with
  | nil => rfl
  | cons c t ih =>
    have ih := ih fun d hd => h d (List.mem_cons_of_mem _ hd)
    have hc := h c (by simp)
    rw [List.map_cons, List.find?_cons, List.find?_cons]
    by_cases e : c.1 = b
    · simp [e, hc.mpr e, renamed_snd]
    · have e' : ¬ (renamed columnMap c).1 = a := fun x => e (hc.mp x)
      simp only [e, e', decide_false]
      exact ih

theorem find?_new (t : Cols) (ht : Renamable t) (p : String × String) (hp : p ∈ columnMap) :
    ((t.map (renamed columnMap)).find? fun c => c.1 = p.1).map Prod.snd = (t.find? fun c => c.1 = p.2).map Prod.snd := by
  apply find?_renamed
  intro c hc
  rcases renamed_fst c with ⟨q, hq, h1, h2⟩ | ⟨h1, h2⟩
  · rw [h1, h2]
    constructor
    · intro e
      have : ∀ p ∈ columnMap, ∀ q ∈ columnMap, q.1 = p.1 → q.2 = p.2 := by decide
      exact this p hp q hq e
    · intro e
      have : ∀ p ∈ columnMap, ∀ q ∈ columnMap, q.2 = p.2 → q.1 = p.1 := by decide
      exact this p hp q hq e
  · rw [h2]
    constructor
    · intro e
      exact absurd (List.mem_map.mpr ⟨c, hc, e⟩) (ht p hp).2
    · intro e
      exact absurd (List.mem_map.mpr ⟨p, hp, e.symm⟩) h1

/-! ## Counting -/

theorem countGroups_sorted {α : Type*} [LinearOrder α] (l : List α) (h : l.Pairwise (· ≤ ·)) : countGroups l = l.toFinset.card := by
  induction l with
  | nil => rfl
  | cons a l ih =>
    cases l with
    | nil => simp [countGroups]
    | cons b l =>
      rw [List.pairwise_cons] at h
      rw [countGroups, ih h.2, List.toFinset_cons (a := a)]
      by_cases e : a = b
      · subst e
        rw [if_pos rfl, Finset.insert_eq_self.mpr (by simp)]
        omega
      · have hab : a < b := lt_of_le_of_ne (h.1 b (by simp)) e
        rw [if_neg e, Finset.card_insert_of_notMem]
        · omega
        · simp only [List.mem_toFinset]
          intro hm
          rcases List.mem_cons.mp hm with rfl | hm
          · exact e rfl
          · exact absurd hab (not_lt.mpr ((List.pairwise_cons.mp h.2).1 a hm))

theorem lenUnique_eq (rows : List (ℝ ×ₗ ℝ ×ₗ ℝ)) : lenUnique rows = rows.toFinset.card := by
  unfold lenUnique
  have hs : (rows.mergeSort fun a b => decide (a ≤ b)).Pairwise (· ≤ ·) := by
    have := List.pairwise_mergeSort (le := fun a b : ℝ ×ₗ ℝ ×ₗ ℝ => decide (a ≤ b))
      (fun a b c hab hbc => by simpa using le_trans (by simpa using hab) (by simpa using hbc))
      (fun a b => by simpa using le_total a b) rows
    exact this.imp (fun h => by simpa using h)
  rw [countGroups_sorted _ hs]
  congr 1
  ext x
  simp [List.mem_mergeSort]

theorem lenUnique_runRows (o a e : List ℝ) : lenUnique (runRows o a e) = (triples o a e).card := by
  classical
  rw [lenUnique_eq]
  have : runRows o a e = (o.zip (a.zip e)).map fun p => toLex (p.1, toLex p.2) := by
    rw [runRows, List.zip, List.zip, List.map_zipWith]
  rw [this]
  unfold triples
  rw [← Finset.card_image_of_injective (f := fun p : ℝ × ℝ × ℝ => (toLex (p.1, toLex p.2) : ℝ ×ₗ ℝ ×ₗ ℝ))]
  · congr 1
    ext x
    simp
  · intro p q h
    have h := toLex.injective h
    obtain ⟨h1, h2⟩ := Prod.mk.inj h
    exact Prod.ext h1 (toLex.injective h2)

theorem colOf_eq (t : Cols) (name : String) (v : List ℝ) : colOf t name = .ok v ↔ HasColumn t name v := by
  unfold colOf HasColumn
  cases t.find? fun c => c.1 = name <;> simp

theorem hasColumn_of_mem (t : Cols) (name : String) (h : name ∈ t.map Prod.fst) : ∃ v, HasColumn t name v := by
  obtain ⟨c, hc, he⟩ := List.mem_map.mp h
  unfold HasColumn
  cases hf : t.find? fun c => c.1 = name with
  | none => exact absurd he (by simpa using List.find?_eq_none.mp hf c hc)
  | some d => exact ⟨d.2, rfl⟩

/-- A run header row with the entries the reader needs. -/
def GoodHeader (hdr : RunHeader) : Prop := 2 ≤ hdr.eRange.length ∧ 2 ≤ hdr.coreRange.length ∧ 2 ≤ hdr.viewcone.length

theorem item_ok {l : List ℝ} {i : ℕ} (h : i < l.length) : item l i = .ok l[i] := by
  unfold item; rw [List.getElem?_eq_getElem h]

/-- The reader on good input. -/
theorem read_ok (events : Cols) (simEvents : List ℝ) (hdr : RunHeader) (rest : List RunHeader) (useHistogram : Bool)
    (ht : Renamable events) (hg : GoodHeader hdr) :
    ∃ o a e, HasColumn events "OBS_ID" o ∧ HasColumn events "PNT_AZ" a ∧ HasColumn events "PNT_ALT" e ∧
      readEventdisplayFits events simEvents (hdr :: rest) useHistogram =
        match mkInfo (if useHistogram then pyInt simEvents.sum else (triples o a e).card * hdr.numUse * hdr.numShowers : ℤ)
          (hdr.eRange[0]'(by have := hg.1; omega)) (hdr.eRange[1]'(by have := hg.1; omega)) (hdr.coreRange[1]'(by have := hg.2.1; omega))
          hdr.spectralIndex ((hdr.viewcone[0]'(by have := hg.2.2; omega)) * (Real.pi / 180))
          ((hdr.viewcone[1]'(by have := hg.2.2; omega)) * (Real.pi / 180)) with
        | .error er => .error er
        | .ok info => .ok (events.map (renamed columnMap), info) := by
  obtain ⟨o, ho⟩ := hasColumn_of_mem events "OBS_ID" (ht ("obs_id", "OBS_ID") (by decide)).1
  obtain ⟨a, ha⟩ := hasColumn_of_mem events "PNT_AZ" (ht ("pointing_az", "PNT_AZ") (by decide)).1
  obtain ⟨e, he⟩ := hasColumn_of_mem events "PNT_ALT" (ht ("pointing_alt", "PNT_ALT") (by decide)).1
  refine ⟨o, a, e, ho, ha, he, ?_⟩
  have h1 : colOf (events.map (renamed columnMap)) "obs_id" = .ok o :=
    (colOf_eq _ _ _).mpr ((find?_new events ht ("obs_id", "OBS_ID") (by decide)).trans ho)
  have h2 : colOf (events.map (renamed columnMap)) "pointing_az" = .ok a :=
    (colOf_eq _ _ _).mpr ((find?_new events ht ("pointing_az", "PNT_AZ") (by decide)).trans ha)
  have h3 : colOf (events.map (renamed columnMap)) "pointing_alt" = .ok e :=
    (colOf_eq _ _ _).mpr ((find?_new events ht ("pointing_alt", "PNT_ALT") (by decide)).trans he)
  have hg1 := hg.1
  have hg2 := hg.2.1
  have hg3 := hg.2.2
  simp only [readEventdisplayFits, (renameAll_columnMap events).1 ht, bind, Except.bind, h1, h2, h3, lenUnique_runRows,
    item_ok (show 0 < hdr.eRange.length by omega), item_ok (show 1 < hdr.eRange.length by omega),
    item_ok (show 1 < hdr.coreRange.length by omega), item_ok (show 0 < hdr.viewcone.length by omega),
    item_ok (show 1 < hdr.viewcone.length by omega)]
  generalize mkInfo _ _ _ _ _ _ _ = r
  cases r <;> rfl

/-- The names of the columns: pyirf's name and the name in EventDisplay's file. -/
def documentedNames : List (String × String) :=
  [("obs_id", "OBS_ID"), ("event_id", "EVENT_ID"), ("true_energy", "MC_ENERGY"), ("reco_energy", "ENERGY"),
   ("true_alt", "MC_ALT"), ("true_az", "MC_AZ"), ("pointing_alt", "PNT_ALT"), ("pointing_az", "PNT_AZ"),
   ("reco_alt", "ALT"), ("reco_az", "AZ"), ("gh_score", "GH_MVA"), ("multiplicity", "MULTIP")]

/-- `n` is `x` without its decimals. -/
def IsTruncation (x : ℝ) (n : ℤ) : Prop :=
  |(n : ℝ)| ≤ |x| ∧ |x| < |(n : ℝ)| + 1 ∧ 0 ≤ (n : ℝ) * x

theorem pyInt_isTruncation (x : ℝ) : IsTruncation x (pyInt x) := by
  unfold IsTruncation pyInt
  by_cases h : 0 ≤ x
  · rw [if_pos h]
    have h0 : (0 : ℝ) ≤ (⌊x⌋ : ℝ) := by exact_mod_cast Int.floor_nonneg.mpr h
    rw [abs_of_nonneg h, abs_of_nonneg h0]
    exact ⟨Int.floor_le x, Int.lt_floor_add_one x, mul_nonneg h0 h⟩
  · rw [if_neg h]
    have h := not_le.mp h
    have h0 : ((⌈x⌉ : ℤ) : ℝ) ≤ 0 := by
      exact_mod_cast Int.ceil_le.mpr (by push_cast; exact h.le)
    rw [abs_of_neg h, abs_of_nonpos h0]
    exact ⟨neg_le_neg (Int.le_ceil x), by have := Int.ceil_lt_add_one x; linarith, mul_nonneg_of_nonpos_of_nonpos h0 h.le⟩

/-- **C71** The reader succeeds iff the run header has a row with complete ranges and a spectral index of at most -1, every EventDisplay column exists
and no pyirf column exists yet. -/
theorem C71_accepts (events : Cols) (simEvents : List ℝ) (runHeader : List RunHeader) (useHistogram : Bool) :
    (∃ r, readEventdisplayFits events simEvents runHeader useHistogram = .ok r) ↔
      (∃ hdr, runHeader.head? = some hdr ∧ GoodHeader hdr ∧ hdr.spectralIndex ≤ -1) ∧
      ∀ p ∈ documentedNames, (∃ c ∈ events, c.1 = p.2) ∧ NoColumn events p.1 := by
  change _ ↔ _ ∧ ∀ p ∈ columnMap, _
  have hR : (∀ p ∈ columnMap, (∃ c ∈ events, c.1 = p.2) ∧ NoColumn events p.1) ↔ Renamable events := by
    unfold Renamable NoColumn
    simp only [List.mem_map, not_exists, not_and]
  rw [hR]
  cases runHeader with
  | nil => simp [readEventdisplayFits]
  | cons hdr rest =>
    by_cases ht : Renamable events
    · by_cases hg : GoodHeader hdr
      · obtain ⟨o, a, e, _, _, _, hr⟩ := read_ok events simEvents hdr rest useHistogram ht hg
        rw [hr]
        unfold mkInfo
        by_cases hs : hdr.spectralIndex ≤ -1
        · rw [if_neg (not_lt.mpr hs)]
          exact ⟨fun _ => ⟨⟨hdr, rfl, hg, hs⟩, ht⟩, fun _ => ⟨_, rfl⟩⟩
        · rw [if_pos (not_le.mp hs)]
          refine ⟨fun ⟨r, h⟩ => (nomatch h), fun ⟨⟨h', e', _, hs'⟩, _⟩ => ?_⟩
          cases e'
          exact absurd hs' hs
      · refine ⟨?_, fun ⟨⟨h', e', hg', _⟩, _⟩ => ?_⟩
        · rintro ⟨r, hr⟩
          exfalso
          apply hg
          have h1 := ht ("obs_id", "OBS_ID") (by decide)
          unfold readEventdisplayFits at hr
          simp only [(renameAll_columnMap events).1 ht, bind, Except.bind] at hr
          have key : ∀ (l : List ℝ), (∃ x y, item l 0 = .ok x ∧ item l 1 = .ok y) → 2 ≤ l.length := by
            rintro l ⟨x, y, _, hy⟩
            by_contra hlt
            unfold item at hy
            rw [List.getElem?_eq_none (by omega)] at hy
            cases hy
          split at hr; · cases hr
          split at hr; · cases hr
          split at hr; · cases hr
          split at hr; · cases hr
          split at hr; · cases hr
          split at hr; · cases hr
          split at hr; · cases hr
          split at hr; · cases hr
          rename_i _ _ _ _ _ _ _ e0 he0 _ e1 he1 _ r1 hr1 _ v0 hv0 _ v1 hv1
          refine ⟨key _ ⟨_, _, he0, he1⟩, ?_, key _ ⟨_, _, hv0, hv1⟩⟩
          by_contra hlt
          unfold item at hr1
          rw [List.getElem?_eq_none (by omega)] at hr1
          cases hr1
        · cases e'
          exact absurd hg' hg
    · refine ⟨?_, fun h => absurd h.2 ht⟩
      rintro ⟨r, hr⟩
      rw [readEventdisplayFits, (renameAll_columnMap events).2 ht] at hr
      cases hr

/-- **C71** Renaming: each EventDisplay column is found under its pyirf name with the same values and no longer under the old one, all other columns
keep name and values, and the columns keep their order. -/
theorem C71_columns (events : Cols) (simEvents : List ℝ) (runHeader : List RunHeader) (useHistogram : Bool) (out : Cols) (info : Info)
    (hok : readEventdisplayFits events simEvents runHeader useHistogram = .ok (out, info)) :
    (∀ p ∈ documentedNames, NoColumn out p.2 ∧ ∃ v, HasColumn events p.2 v ∧ HasColumn out p.1 v) ∧
    (∀ name, (∀ p ∈ documentedNames, name ≠ p.1 ∧ name ≠ p.2) → ∀ v, HasColumn out name v ↔ HasColumn events name v) ∧
    out.map Prod.snd = events.map Prod.snd ∧
    ((events.map Prod.fst).Nodup → (out.map Prod.fst).Nodup) := by
  change (∀ p ∈ columnMap, _) ∧ (∀ name, (∀ p ∈ columnMap, _) → _) ∧ _
  have ht : Renamable events := by
    have := ((C71_accepts events simEvents runHeader useHistogram).mp ⟨_, hok⟩).2
    intro p hp
    obtain ⟨⟨c, hc, he⟩, h2⟩ := this p hp
    refine ⟨List.mem_map.mpr ⟨c, hc, he⟩, fun h => ?_⟩
    obtain ⟨d, hd, hde⟩ := List.mem_map.mp h
    exact h2 d hd hde
  have hout : out = events.map (renamed columnMap) := by
    cases runHeader with
    | nil => cases hok
    | cons hdr rest =>
      obtain ⟨⟨hdr', e', hg, _⟩, _⟩ := (C71_accepts events simEvents (hdr :: rest) useHistogram).mp ⟨_, hok⟩
      cases e'
      obtain ⟨o, a, e, _, _, _, hr⟩ := read_ok events simEvents hdr rest useHistogram ht hg
      rw [hr] at hok
      unfold mkInfo at hok
      split at hok
      · cases hok
      · injection hok with hok
        exact (congrArg Prod.fst hok).symm
  subst hout
  refine ⟨fun p hp => ⟨?_, ?_⟩, ?_, ?_, ?_⟩
  · intro c hc
    obtain ⟨d, hd, rfl⟩ := List.mem_map.mp hc
    rcases renamed_fst d with ⟨q, hq, h1, h2⟩ | ⟨h1, h2⟩
    · rw [h2]
      have : ∀ p ∈ columnMap, ∀ q ∈ columnMap, q.1 ≠ p.2 := by decide
      exact this p hp q hq
    · rw [h2]
      exact fun e => h1 (List.mem_map.mpr ⟨p, hp, e.symm⟩)
  · obtain ⟨v, hv⟩ := hasColumn_of_mem events p.2 (ht p hp).1
    exact ⟨v, hv, (find?_new events ht p hp).trans hv⟩
  · intro name hname v
    unfold HasColumn
    rw [find?_renamed events name name]
    intro c _
    rcases renamed_fst c with ⟨q, hq, h1, h2⟩ | ⟨h1, h2⟩
    · rw [h1, h2]
      exact ⟨fun e => absurd e.symm (hname q hq).1, fun e => absurd e.symm (hname q hq).2⟩
    · rw [h2]
  · rw [List.map_map]
    exact List.map_congr_left fun c _ => renamed_snd c
  · intro hnd
    rw [List.map_map]
    have hinj : ∀ c ∈ events, ∀ d ∈ events, (renamed columnMap c).1 = (renamed columnMap d).1 → c.1 = d.1 := by
      intro c hc d hd h
      rcases renamed_fst c with ⟨q, hq, h1, h2⟩ | ⟨h1, h2⟩ <;> rcases renamed_fst d with ⟨r, hr, h3, h4⟩ | ⟨h3, h4⟩
      · rw [h2, h4] at h
        rw [h1, h3]
        have : ∀ p ∈ columnMap, ∀ q ∈ columnMap, p.1 = q.1 → p.2 = q.2 := by decide
        exact this q hq r hr h
      · rw [h2, h4] at h
        exact absurd (List.mem_map.mpr ⟨d, hd, h.symm⟩) (ht q hq).2
      · rw [h2, h4] at h
        exact absurd (List.mem_map.mpr ⟨c, hc, h⟩) (ht r hr).2
      · rw [h2, h4] at h
        exact h
    have hp := List.pairwise_map.mp hnd
    refine List.pairwise_map.mpr (List.Pairwise.imp_of_mem ?_ hp)
    intro c d hc hd hne h
    exact hne (hinj c hc d hd h)

/-- **C71** The simulation info: shower number from the histogram or from the different (obs_id, azimuth, altitude) triples, ranges from the run header. -/
theorem C71_info (events : Cols) (simEvents : List ℝ) (hdr : RunHeader) (rest : List RunHeader) (useHistogram : Bool) (out : Cols) (info : Info)
    (hok : readEventdisplayFits events simEvents (hdr :: rest) useHistogram = .ok (out, info)) :
    (∃ o a e, HasColumn events "OBS_ID" o ∧ HasColumn events "PNT_AZ" a ∧ HasColumn events "PNT_ALT" e ∧
      (useHistogram = false → info.nShowers = (triples o a e).card * hdr.numUse * hdr.numShowers)) ∧
    (useHistogram = true → ∃ n : ℤ, info.nShowers = n ∧ IsTruncation simEvents.sum n) ∧
    hdr.eRange[0]? = some info.energyMin ∧ hdr.eRange[1]? = some info.energyMax ∧ hdr.coreRange[1]? = some info.maxImpact ∧
    info.spectralIndex = hdr.spectralIndex ∧ info.spectralIndex ≤ -1 ∧
    (∃ v, hdr.viewcone[0]? = some v ∧ info.viewconeMin = v * (Real.pi / 180)) ∧
    (∃ v, hdr.viewcone[1]? = some v ∧ info.viewconeMax = v * (Real.pi / 180)) := by
  obtain ⟨⟨hdr', e', hg, hs⟩, hcol⟩ := (C71_accepts events simEvents (hdr :: rest) useHistogram).mp ⟨_, hok⟩
  cases e'
  have ht : Renamable events := by
    intro p hp
    obtain ⟨⟨c, hc, he⟩, h2⟩ := hcol p hp
    refine ⟨List.mem_map.mpr ⟨c, hc, he⟩, fun h => ?_⟩
    obtain ⟨d, hd, hde⟩ := List.mem_map.mp h
    exact h2 d hd hde
  obtain ⟨o, a, e, ho, ha, he, hr⟩ := read_ok events simEvents hdr rest useHistogram ht hg
  rw [hr, mkInfo, if_neg (not_lt.mpr hs)] at hok
  injection hok with hok
  have hinfo := (congrArg Prod.snd hok).symm
  simp only at hinfo
  subst hinfo
  refine ⟨⟨o, a, e, ho, ha, he, ?_⟩, ?_, ?_, ?_, ?_, rfl, hs, ⟨_, ?_, rfl⟩, ⟨_, ?_, rfl⟩⟩
  · intro h; simp [h]
  · intro h; exact ⟨pyInt simEvents.sum, by simp [h], pyInt_isTruncation _⟩
  all_goals exact List.getElem?_eq_getElem _

/-- **C71** The estimate without histogram depends only on the set of triples: reordering or repeating events changes nothing. -/
theorem C71_order (events events' : Cols) (simEvents simEvents' : List ℝ) (hdr : RunHeader) (rest rest' : List RunHeader) (out out' : Cols) (info info' : Info)
    (hok : readEventdisplayFits events simEvents (hdr :: rest) false = .ok (out, info))
    (hok' : readEventdisplayFits events' simEvents' (hdr :: rest') false = .ok (out', info'))
    (hset : ∀ o a e o' a' e', HasColumn events "OBS_ID" o → HasColumn events "PNT_AZ" a → HasColumn events "PNT_ALT" e →
      HasColumn events' "OBS_ID" o' → HasColumn events' "PNT_AZ" a' → HasColumn events' "PNT_ALT" e' →
      ∀ x, x ∈ o.zip (a.zip e) ↔ x ∈ o'.zip (a'.zip e')) : info = info' := by
  obtain ⟨⟨o, a, e, ho, ha, he, hn⟩, _, h1, h2, h3, h4, _, ⟨v, h5, h6⟩, ⟨w, h7, h8⟩⟩ := C71_info _ _ _ _ _ _ _ hok
  obtain ⟨⟨o', a', e', ho', ha', he', hn'⟩, _, g1, g2, g3, g4, _, ⟨v', g5, g6⟩, ⟨w', g7, g8⟩⟩ := C71_info _ _ _ _ _ _ _ hok'
  have hN : info.nShowers = info'.nShowers := by
    rw [hn rfl, hn' rfl]
    have : triples o a e = triples o' a' e' := by
      classical
      ext x
      simp only [triples, List.mem_toFinset]
      exact hset o a e o' a' e' ho ha he ho' ha' he' x
    rw [this]
  rw [h1] at g1; rw [h2] at g2; rw [h3] at g3; rw [h5] at g5; rw [h7] at g7
  obtain ⟨n, emin, emax, mi, si', vmin, vmax⟩ := info
  obtain ⟨n', emin', emax', mi', si'', vmin', vmax'⟩ := info'
  simp only [Option.some.injEq] at *
  subst g1 g2 g3 g5 g7 hN h6 g6 h8 g8 h4 g4
  rfl

/-! ## Satisfiability -/

/-- a table with two events of one run -/
noncomputable def exEvents : Cols := columnMap.map fun p => (p.2, [1, 1])

example : ∃ r, readEventdisplayFits exEvents [10, 20] [⟨10, 100, [1, 2], [0, 500], -2, [0, 10]⟩] false = .ok r := by
  rw [C71_accepts]
  refine ⟨⟨_, rfl, ⟨by simp, by simp, by simp⟩, by norm_num⟩, ?_⟩
  have hn : exEvents.map Prod.fst = columnMap.map Prod.snd := by simp [exEvents]
  intro p hp
  refine ⟨⟨(p.2, [1, 1]), List.mem_map.mpr ⟨p, hp, rfl⟩, rfl⟩, ?_⟩
  intro c hc e
  have : c.1 ∈ columnMap.map Prod.snd := hn ▸ List.mem_map_of_mem hc
  rw [e] at this
  have hne : ∀ p ∈ columnMap, p.1 ∉ columnMap.map Prod.snd := by decide
  exact hne p hp this

end Pyirf.Io
