import Verif.Io.GadfModel

/-!
# Model: header objects in a Python session

`DEFAULT_HEADER` (/repo/pyirf/io/gadf.py:19-24) is one object shared by all calls of the `create_*_hdu` functions. GadfModel.lean computes the header of a single call as a value; here the header objects, with
references, are modelled, so that a call could leave traces for later calls.
-/
set_option linter.unusedSectionVars false

namespace Pyirf.Io
open Pyirf

/-- The header objects of the session, by reference; those from `next` on do not exist yet. -/
structure Session where
  obj : ℕ → Header
  next : ℕ

/-- The reference of `DEFAULT_HEADER` -/
def DEFAULT : ℕ := 0

/-- The session after `import pyirf.io.gadf`, /repo/pyirf/io/gadf.py:19-24. -/
def imported (ctx : Ctx) : Session := ⟨fun _ => defaultHeader ctx, 1⟩

/-- `header[key] = value` on the object `r` -/
def Session.setItem (s : Session) (r : ℕ) (c : String × HVal) : Session := ⟨fun r' => if r' = r then put (s.obj r) c.1 c.2 else s.obj r', s.next⟩

/-- `header.copy()`: a new object -/
def Session.copy (s : Session) (r : ℕ) : Session × ℕ := (⟨fun r' => if r' = s.next then s.obj r else s.obj r', s.next + 1⟩, s.next)

/-- Which function is called, with the arguments that matter for the header. -/
inductive Kind
  | aeff (pointLike : Bool) | psf | edisp (pointLike : Bool) | bkg2d | bkg3d (alignment : String) | radMax (pointLike : Bool)

/-- The statements `header[...] = ...` of the functions in their order, /repo/pyirf/io/gadf.py:73-80, 131-139, 191-199, 249-257, 306-324, 371-379. For `create_background_3d_hdu` with another alignment than ALTAZ and RADEC:
those before the ValueError (line 315), with the error. -/
def Kind.cards (k : Kind) (now : String) : List (String × HVal) × Except Err Unit :=
  match k with
  | .aeff p => ([("HDUCLAS1", .str "RESPONSE"), ("HDUCLAS2", .str "EFF_AREA"), ("HDUCLAS3", .str (if p then "POINT-LIKE" else "FULL-ENCLOSURE")), ("HDUCLAS4", .str "AEFF_2D"), ("DATE", .str now),
      ("CREF5", .str "(ENERG_LO:ENERG_HI,THETA_LO:THETA_HI)")], .ok ())
  | .psf => ([("HDUCLAS1", .str "RESPONSE"), ("HDUCLAS2", .str "PSF"), ("HDUCLAS3", .str "FULL-ENCLOSURE"), ("HDUCLAS4", .str "PSF_TABLE"), ("DATE", .str now),
      ("CREF7", .str "(ENERG_LO:ENERG_HI,THETA_LO:THETA_HI,RAD_LO:RAD_HI)")], .ok ())
  | .edisp p => ([("HDUCLAS1", .str "RESPONSE"), ("HDUCLAS2", .str "EDISP"), ("HDUCLAS3", .str (if p then "POINT-LIKE" else "FULL-ENCLOSURE")), ("HDUCLAS4", .str "EDISP_2D"), ("DATE", .str now),
      ("CREF7", .str "(ENERG_LO:ENERG_HI,MIGRA_LO:MIGRA_HI,THETA_LO:THETA_HI)")], .ok ())
  | .bkg2d => ([("HDUCLAS1", .str "RESPONSE"), ("HDUCLAS2", .str "BKG"), ("HDUCLAS3", .str "FULL-ENCLOSURE"), ("HDUCLAS4", .str "BKG_2D"), ("DATE", .str now),
      ("CREF5", .str "(ENERG_LO:ENERG_HI,THETA_LO:THETA_HI)")], .ok ())
  | .bkg3d a =>
    if a ∈ ["ALTAZ", "RADEC"] then ([("HDUCLAS1", .str "RESPONSE"), ("HDUCLAS2", .str "BKG"), ("HDUCLAS3", .str "FULL-ENCLOSURE"), ("HDUCLAS4", .str "BKG_3D"), ("FOVALIGN", .str a), ("DATE", .str now),
      ("CREF7", .str "(ENERG_LO:ENERG_HI,DETX_LO:DETX_HI,DETY_LO:DETY_HI)")], .ok ())
    else ([("HDUCLAS1", .str "RESPONSE"), ("HDUCLAS2", .str "BKG"), ("HDUCLAS3", .str "FULL-ENCLOSURE"), ("HDUCLAS4", .str "BKG_3D")], .error .valueError)
  | .radMax _ => ([("HDUCLAS1", .str "RESPONSE"), ("HDUCLAS2", .str "RAD_MAX"), ("HDUCLAS3", .str "POINT-LIKE"), ("HDUCLAS4", .str "RAD_MAX_2D"), ("DATE", .str now),
      ("CREF5", .str "(ENERG_LO:ENERG_HI,THETA_LO:THETA_HI)")], .ok ())

/-- A call: `early` is the outcome of everything before the header is made (units, conversions, table). -/
structure HCall where
  kind : Kind
  early : Except Err Unit
  now : String
  extname : String
  cards : List (String × HVal)

/-- The `create_*_hdu` functions as far as headers are concerned: `header = DEFAULT_HEADER.copy()`, the statements on that object, `_add_header_cards`, `BinTableHDU(table, header=header, name=extname)`. astropy contract: the
HDU gets a header object of its own with the cards of `header`; a nonempty name becomes EXTNAME. Returns the reference of the HDU's header. -/
def Session.create (s : Session) (c : HCall) : Session × Except Err ℕ :=
  match c.early with
  | .error e => (s, .error e)
  | .ok _ =>
    let h := s.copy DEFAULT
    let s1 := (c.kind.cards c.now).1.foldl (fun s x => s.setItem h.2 x) h.1
    match (c.kind.cards c.now).2 with
    | .error e => (s1, .error e)
    | .ok _ =>
      let s2 := c.cards.foldl (fun s x => s.setItem h.2 x) s1
      let b := s2.copy h.2
      (if c.extname = "" then b.1 else b.1.setItem b.2 ("EXTNAME", .str (upper c.extname)), .ok b.2)

/-- A step of the caller: a call, or writing a card into the header of the `i`-th HDU made so far (nothing happens if there is none). -/
inductive HStep
  | call (c : HCall)
  | write (i : ℕ) (card : String × HVal)

/-- One step, with the references of the HDU headers made so far. -/
def HStep.run (st : Session × List ℕ) : HStep → Session × List ℕ
  | .call c => match st.1.create c with
    | (s, .error _) => (s, st.2)
    | (s, .ok r) => (s, st.2 ++ [r])
  | .write i card => match st.2[i]? with
    | some r => (st.1.setItem r card, st.2)
    | none => st

/-- The session after a history. -/
def runHistory (s : Session) (steps : List HStep) : Session × List ℕ := steps.foldl HStep.run (s, [])

end Pyirf.Io
