import Verif.Np.ND
import Verif.Binning.Model

/-!
# Model of /repo/pyirf/io/gadf.py

An HDU is its columns, as they are stored in the file, and its header cards.
The binary table has one row. A column of the astropy table is a numpy array whose first axis is the row;
`BinTableHDU` writes its entries in C order and declares the reversed cell shape as the FITS dimensions.

Not modelled: the structural keywords astropy derives from the columns (TTYPEn, TFORMn, TDIMn, TUNITn, NAXISn, ...) as
header cards, and what happens if a user card names one of them; card comments; keys over 8 characters.
Edges are one-dimensional.
-/
set_option linter.unusedSectionVars false

namespace Pyirf.Io
open Pyirf Pyirf.Np Pyirf.Binning

/-- A physical dimension: exponents of metre, kilogram, second, radian. -/
structure Dim where
  m : ℤ
  kg : ℤ
  s : ℤ
  rad : ℤ
  deriving DecidableEq, Repr

/-- A unit: dimension, and the size of the unit in SI units. -/
structure PhysUnit (K : Type*) where
  dim : Dim
  scale : K

/-- `u.dimensionless_unscaled` -/
def Dim.one : Dim := ⟨0, 0, 0, 0⟩

/-- The two irrational conversion constants: one electron volt in J, one degree in rad. -/
structure Consts (K : Type*) where
  eV : K
  deg : K

section units
variable {K : Type*} [Field K]

/-- `u.m ** 2` -/
def m2 : PhysUnit K := ⟨⟨2, 0, 0, 0⟩, 1⟩
/-- `u.TeV` -/
def teV (c : Consts K) : PhysUnit K := ⟨⟨2, 1, -2, 0⟩, 10 ^ 12 * c.eV⟩
/-- `u.deg` -/
def degree (c : Consts K) : PhysUnit K := ⟨⟨0, 0, 0, 1⟩, c.deg⟩
/-- `1 / u.sr` -/
def perSr : PhysUnit K := ⟨⟨0, 0, 0, -2⟩, 1⟩
/-- `GADF_BACKGROUND_UNIT`, /repo/pyirf/io/gadf.py:209: `MeV-1 s-1 sr-1` -/
def bkgUnit (c : Consts K) : PhysUnit K := ⟨⟨-2, -1, 1, -2⟩, 1 / (10 ^ 6 * c.eV)⟩
/-- `u.one` -/
def unitOne : PhysUnit K := ⟨Dim.one, 1⟩

end units

/-- An array argument: a `Quantity` with its unit, or a plain numpy array (`unit = none`). -/
structure Arg (K : Type*) (σ : Type*) where
  unit : Option (PhysUnit K)
  data : σ

section arrays
variable {K : Type*} [Field K] [LinearOrder K]

/-- `@u.quantity_input(x=target)` for one argument: TypeError without a unit, UnitsError for another dimension. -/
def quantityInput {σ : Type*} (x : Arg K σ) (target : PhysUnit K) : Except Err Unit :=
  match x.unit with
  | none => .error .typeError
  | some un => if un.dim = target.dim then .ok () else .error .unitsError

/-- `x.to(target)` on a list of edges: AttributeError without a unit, UnitConversionError for another dimension. -/
def toEdges (x : Arg K (List (FV K))) (target : PhysUnit K) : Except Err (List (FV K)) :=
  match x.unit with
  | none => .error .attributeError
  | some un => if un.dim = target.dim then .ok (x.data.map fun v => FV.fin (un.scale / target.scale) * v)
    else .error .unitsError

/-- `a.T[np.newaxis, ...]` -/
def transposeRow {α : Type*} (a : ND α) : ND α :=
  ⟨1 :: a.shape.reverse, fun idx => a.get idx.tail.reverse⟩

/-- `x.T[np.newaxis, ...].to(target)` -/
def toData (x : Arg K (ND (FV K))) (target : PhysUnit K) : Except Err (ND (FV K)) :=
  match x.unit with
  | none => .error .attributeError
  | some un => if un.dim = target.dim then
      .ok ⟨(transposeRow x.data).shape, fun idx => FV.fin (un.scale / target.scale) * (transposeRow x.data).get idx⟩
    else .error .unitsError

/-- `u.Quantity(x.T[np.newaxis, ...]).to(u.one)`: a plain array becomes dimensionless. -/
def toDataOne (x : Arg K (ND (FV K))) : Except Err (ND (FV K)) :=
  toData ⟨some (x.unit.getD unitOne), x.data⟩ unitOne

end arrays

/-- `a.ravel()` (C order) of an array given by shape and entries. -/
def ravel {α : Type*} : List ℕ → (List ℕ → α) → List α
  | [], get => [get []]
  | n :: s, get => (List.range n).flatMap fun i => ravel s fun idx => get (i :: idx)

/-- A column of the table: name, unit, numpy array with the row as first axis. -/
structure TCol (K : Type*) where
  name : String
  unit : Option (PhysUnit K)
  values : ND (FV K)

/-- A column of the HDU: name, unit, FITS dimensions (TDIM) and the stored numbers. -/
structure Column (K : Type*) where
  name : String
  unit : Option (PhysUnit K)
  dims : List ℕ
  data : List (FV K)

/-- How `BinTableHDU` stores a table column. -/
def writeColumn {K : Type*} (c : TCol K) : Column K :=
  ⟨c.name, c.unit, c.values.shape.tail.reverse, ravel c.values.shape c.values.get⟩

/-- A header value. -/
inductive HVal
  | str (s : String)
  | int (n : ℤ)
  | bool (b : Bool)
  deriving DecidableEq, Repr

/-- A FITS header: cards with upper-case keywords, in file order. -/
abbrev Header := List (String × HVal)

/-- Keywords that astropy appends instead of overwriting. -/
def commentary : List String := ["COMMENT", "HISTORY", ""]

/-- `header[key] = value` for an upper-case key. -/
def putUpper (h : Header) (key : String) (v : HVal) : Header :=
  if key ∈ commentary then h ++ [(key, v)]
  else if h.any (fun c => c.1 == key) then h.map fun c => if c.1 == key then (key, v) else c
  else h ++ [(key, v)]

/-- `s.upper()` -/
def upper (s : String) : String := String.ofList (s.toList.map Char.toUpper)

/-- Header keywords are case-insensitive: `header[key] = value`. -/
def put (h : Header) (key : String) (v : HVal) : Header := putUpper h (upper key) v

/-- `header[key]` of an upper-case key: the first card. -/
def Header.get? (h : Header) (key : String) : Option HVal := (h.find? fun c => c.1 == key).map Prod.snd

/-- `_add_header_cards(header, **header_cards)`, /repo/pyirf/io/gadf.py:27-29. -/
def addHeaderCards (h : Header) (cards : List (String × HVal)) : Header :=
  cards.foldl (fun h c => put h c.1 c.2) h

/-- The HDU returned to the caller. -/
structure Hdu (K : Type*) where
  columns : List (Column K)
  header : Header

/-- What every function takes besides the arrays: extension name, user cards; and the package version and the current time. -/
structure Ctx where
  version : String
  now : String
  extname : String
  cards : List (String × HVal)

/-- `DEFAULT_HEADER`, /repo/pyirf/io/gadf.py:19-24. -/
def defaultHeader (ctx : Ctx) : Header :=
  [("CREATOR", .str ("pyirf v" ++ ctx.version)),
   ("HDUDOC", .str "https://github.com/open-gamma-ray-astro/gamma-astro-data-formats"),
   ("HDUVERS", .str "0.2"),
   ("HDUCLASS", .str "GADF")]

/-- `BinTableHDU(table, header=header, name=extname)`: writes the columns, a nonempty name becomes EXTNAME (in upper case). -/
def binTableHDU {K : Type*} (ctx : Ctx) (table : List (TCol K)) (header : Header) : Hdu K :=
  ⟨table.map writeColumn, if ctx.extname = "" then header else putUpper header "EXTNAME" (.str (upper ctx.extname))⟩

/-- `table.colnames.index(name) + 1` -/
def colnamesIndex {K : Type*} (table : List (TCol K)) (name : String) : ℕ := (table.map TCol.name).idxOf name + 1

section functions
variable {K : Type} [Field K] [LinearOrder K]

/-- `t[lo], t[hi] = binning.split_bin_lo_hi(edges[np.newaxis, :])`: two columns of one row. -/
def loHi (lo hi : String) (unit : Option (PhysUnit K)) (edges : List (FV K)) : List (TCol K) :=
  let s := splitBinLoHi [edges]
  [⟨lo, unit, ⟨[1, (s.1.headD []).length], fun idx => (s.1.headD []).getD (idx.getD 1 0) .nan⟩⟩,
   ⟨hi, unit, ⟨[1, (s.2.headD []).length], fun idx => (s.2.headD []).getD (idx.getD 1 0) .nan⟩⟩]

/-- `create_aeff2d_hdu`, /repo/pyirf/io/gadf.py:32-83. -/
def createAeff2dHdu (c : Consts K) (ctx : Ctx) (effectiveArea : Arg K (ND (FV K)))
    (trueEnergyBins fovOffsetBins : Arg K (List (FV K))) (pointLike : Bool := true) : Except Err (Hdu K) := do
  quantityInput effectiveArea m2
  quantityInput trueEnergyBins (teV c)
  quantityInput fovOffsetBins (degree c)
  let energ ← toEdges trueEnergyBins (teV c)
  let theta ← toEdges fovOffsetBins (degree c)
  let aeff ← toData effectiveArea m2
  let table := loHi "ENERG_LO" "ENERG_HI" (some (teV c)) energ ++ loHi "THETA_LO" "THETA_HI" (some (degree c)) theta ++
    [⟨"EFFAREA", some m2, aeff⟩]
  let h := defaultHeader ctx
  let h := putUpper h "HDUCLAS1" (.str "RESPONSE")
  let h := putUpper h "HDUCLAS2" (.str "EFF_AREA")
  let h := putUpper h "HDUCLAS3" (.str (if pointLike then "POINT-LIKE" else "FULL-ENCLOSURE"))
  let h := putUpper h "HDUCLAS4" (.str "AEFF_2D")
  let h := putUpper h "DATE" (.str ctx.now)
  let idx := colnamesIndex table "EFFAREA"
  let h := putUpper h ("CREF" ++ toString idx) (.str "(ENERG_LO:ENERG_HI,THETA_LO:THETA_HI)")
  let h := addHeaderCards h ctx.cards
  pure (binTableHDU ctx table h)

/-- `create_psf_table_hdu`, /repo/pyirf/io/gadf.py:86-142. -/
def createPsfTableHdu (c : Consts K) (ctx : Ctx) (psf : Arg K (ND (FV K)))
    (trueEnergyBins sourceOffsetBins fovOffsetBins : Arg K (List (FV K))) : Except Err (Hdu K) := do
  quantityInput psf perSr
  quantityInput trueEnergyBins (teV c)
  quantityInput sourceOffsetBins (degree c)
  quantityInput fovOffsetBins (degree c)
  let energ ← toEdges trueEnergyBins (teV c)
  let theta ← toEdges fovOffsetBins (degree c)
  let rad ← toEdges sourceOffsetBins (degree c)
  let rpsf ← toData psf perSr
  let table := loHi "ENERG_LO" "ENERG_HI" (some (teV c)) energ ++ loHi "THETA_LO" "THETA_HI" (some (degree c)) theta ++
    loHi "RAD_LO" "RAD_HI" (some (degree c)) rad ++ [⟨"RPSF", some perSr, rpsf⟩]
  let h := defaultHeader ctx
  let h := putUpper h "HDUCLAS1" (.str "RESPONSE")
  let h := putUpper h "HDUCLAS2" (.str "PSF")
  let h := putUpper h "HDUCLAS3" (.str "FULL-ENCLOSURE")
  let h := putUpper h "HDUCLAS4" (.str "PSF_TABLE")
  let h := putUpper h "DATE" (.str ctx.now)
  let idx := colnamesIndex table "RPSF"
  let h := putUpper h ("CREF" ++ toString idx) (.str "(ENERG_LO:ENERG_HI,THETA_LO:THETA_HI,RAD_LO:RAD_HI)")
  let h := addHeaderCards h ctx.cards
  pure (binTableHDU ctx table h)

/-- `create_energy_dispersion_hdu`, /repo/pyirf/io/gadf.py:145-202. The migration edges are not converted: their column
keeps the unit of the argument. -/
def createEnergyDispersionHdu (c : Consts K) (ctx : Ctx) (energyDispersion : Arg K (ND (FV K)))
    (trueEnergyBins migrationBins fovOffsetBins : Arg K (List (FV K))) (pointLike : Bool := true) : Except Err (Hdu K) := do
  quantityInput trueEnergyBins (teV c)
  quantityInput fovOffsetBins (degree c)
  let energ ← toEdges trueEnergyBins (teV c)
  let theta ← toEdges fovOffsetBins (degree c)
  let matrix ← toDataOne energyDispersion
  let table := loHi "ENERG_LO" "ENERG_HI" (some (teV c)) energ ++
    loHi "MIGRA_LO" "MIGRA_HI" migrationBins.unit migrationBins.data ++
    loHi "THETA_LO" "THETA_HI" (some (degree c)) theta ++ [⟨"MATRIX", some unitOne, matrix⟩]
  let h := defaultHeader ctx
  let h := putUpper h "HDUCLAS1" (.str "RESPONSE")
  let h := putUpper h "HDUCLAS2" (.str "EDISP")
  let h := putUpper h "HDUCLAS3" (.str (if pointLike then "POINT-LIKE" else "FULL-ENCLOSURE"))
  let h := putUpper h "HDUCLAS4" (.str "EDISP_2D")
  let h := putUpper h "DATE" (.str ctx.now)
  let idx := colnamesIndex table "MATRIX"
  let h := putUpper h ("CREF" ++ toString idx) (.str "(ENERG_LO:ENERG_HI,MIGRA_LO:MIGRA_HI,THETA_LO:THETA_HI)")
  let h := addHeaderCards h ctx.cards
  pure (binTableHDU ctx table h)

/-- `create_background_2d_hdu`, /repo/pyirf/io/gadf.py:212-260. The decorator names a parameter `background` that does not
exist, so the background array is not checked by it. -/
def createBackground2dHdu (c : Consts K) (ctx : Ctx) (background2d : Arg K (ND (FV K)))
    (recoEnergyBins fovOffsetBins : Arg K (List (FV K))) : Except Err (Hdu K) := do
  quantityInput recoEnergyBins (teV c)
  quantityInput fovOffsetBins (degree c)
  let energ ← toEdges recoEnergyBins (teV c)
  let theta ← toEdges fovOffsetBins (degree c)
  let bkg ← toData background2d (bkgUnit c)
  let table := loHi "ENERG_LO" "ENERG_HI" (some (teV c)) energ ++ loHi "THETA_LO" "THETA_HI" (some (degree c)) theta ++
    [⟨"BKG", some (bkgUnit c), bkg⟩]
  let h := defaultHeader ctx
  let h := putUpper h "HDUCLAS1" (.str "RESPONSE")
  let h := putUpper h "HDUCLAS2" (.str "BKG")
  let h := putUpper h "HDUCLAS3" (.str "FULL-ENCLOSURE")
  let h := putUpper h "HDUCLAS4" (.str "BKG_2D")
  let h := putUpper h "DATE" (.str ctx.now)
  let idx := colnamesIndex table "BKG"
  let h := putUpper h ("CREF" ++ toString idx) (.str "(ENERG_LO:ENERG_HI,THETA_LO:THETA_HI)")
  let h := addHeaderCards h ctx.cards
  pure (binTableHDU ctx table h)

/-- `create_background_3d_hdu`, /repo/pyirf/io/gadf.py:263-327. -/
def createBackground3dHdu (c : Consts K) (ctx : Ctx) (background3d : Arg K (ND (FV K)))
    (recoEnergyBins fovLonBins fovLatBins : Arg K (List (FV K))) (alignment : String := "ALTAZ") : Except Err (Hdu K) := do
  quantityInput recoEnergyBins (teV c)
  quantityInput fovLonBins (degree c)
  quantityInput fovLatBins (degree c)
  let energ ← toEdges recoEnergyBins (teV c)
  let detx ← toEdges fovLonBins (degree c)
  let dety ← toEdges fovLatBins (degree c)
  let bkg ← toData background3d (bkgUnit c)
  let table := loHi "ENERG_LO" "ENERG_HI" (some (teV c)) energ ++ loHi "DETX_LO" "DETX_HI" (some (degree c)) detx ++
    loHi "DETY_LO" "DETY_HI" (some (degree c)) dety ++ [⟨"BKG", some (bkgUnit c), bkg⟩]
  let h := defaultHeader ctx
  let h := putUpper h "HDUCLAS1" (.str "RESPONSE")
  let h := putUpper h "HDUCLAS2" (.str "BKG")
  let h := putUpper h "HDUCLAS3" (.str "FULL-ENCLOSURE")
  let h := putUpper h "HDUCLAS4" (.str "BKG_3D")
  let h ← if alignment ∈ ["ALTAZ", "RADEC"] then (.ok (putUpper h "FOVALIGN" (.str alignment)) : Except Err Header)
    else .error .valueError
  let h := putUpper h "DATE" (.str ctx.now)
  let idx := colnamesIndex table "BKG"
  let h := putUpper h ("CREF" ++ toString idx) (.str "(ENERG_LO:ENERG_HI,DETX_LO:DETX_HI,DETY_LO:DETY_HI)")
  let h := addHeaderCards h ctx.cards
  pure (binTableHDU ctx table h)

/-- `create_rad_max_hdu`, /repo/pyirf/io/gadf.py:330-382: `point_like` is not used. -/
def createRadMaxHdu (c : Consts K) (ctx : Ctx) (radMax : Arg K (ND (FV K)))
    (recoEnergyBins fovOffsetBins : Arg K (List (FV K))) (_pointLike : Bool := true) : Except Err (Hdu K) := do
  quantityInput radMax (degree c)
  quantityInput recoEnergyBins (teV c)
  quantityInput fovOffsetBins (degree c)
  let energ ← toEdges recoEnergyBins (teV c)
  let theta ← toEdges fovOffsetBins (degree c)
  let rm ← toData radMax (degree c)
  let table := loHi "ENERG_LO" "ENERG_HI" (some (teV c)) energ ++ loHi "THETA_LO" "THETA_HI" (some (degree c)) theta ++
    [⟨"RAD_MAX", some (degree c), rm⟩]
  let h := defaultHeader ctx
  let h := putUpper h "HDUCLAS1" (.str "RESPONSE")
  let h := putUpper h "HDUCLAS2" (.str "RAD_MAX")
  let h := putUpper h "HDUCLAS3" (.str "POINT-LIKE")
  let h := putUpper h "HDUCLAS4" (.str "RAD_MAX_2D")
  let h := putUpper h "DATE" (.str ctx.now)
  let idx := colnamesIndex table "RAD_MAX"
  let h := putUpper h ("CREF" ++ toString idx) (.str "(ENERG_LO:ENERG_HI,THETA_LO:THETA_HI)")
  let h := addHeaderCards h ctx.cards
  pure (binTableHDU ctx table h)

end functions
end Pyirf.Io
