/-
Model of the parsers and loaders of the coefficient files.
Source: eoxmagmod/eoxmagmod/magnetic_model/parser_shc.py, parser_wmm.py,
        parser_igrf.py, parser_emm.py, parser_mio.py, loader_shc.py,
        loader_wmm.py, loader_igrf.py, loader_emm.py, loader_mma.py, util.py

A text is the list of its lines, with or without the line ends.  `none` is an exception.
`float()` is a parameter: the numbers are taken to the values by an arbitrary function of the
token.  `numpy.array` of rows of different lengths is an exception (as of NumPy 1.24).
-/
import Verif.Model.Coefficients
import Mathlib.Algebra.Order.Floor.Defs

namespace Verif.Parsers

open Verif.Coeffs

/-- Line of a text. -/
abbrev Line := List Char

/-! ### Python string functions -/

/-- ASCII white space of `str.split()` and `str.strip()`. -/
def isWs (c : Char) : Bool :=
  c = ' ' || c = '\t' || c = '\n' || c = '\r' || c = '\x0b' || c = '\x0c' ||
    c = '\x1c' || c = '\x1d' || c = '\x1e' || c = '\x1f'

/-- `str.split()`, with the characters of the current field reversed. -/
def splitGo (cur : List Char) : Line → List (List Char)
  | [] => if cur.isEmpty then [] else [cur.reverse]
  | c :: l =>
    if isWs c then
      if cur.isEmpty then splitGo [] l else cur.reverse :: splitGo [] l
    else splitGo (c :: cur) l

/-- `str.split()` -/
def split (l : Line) : List (List Char) := splitGo [] l

/-- `str.strip()` -/
def strip (l : Line) : Line := ((l.dropWhile isWs).reverse.dropWhile isWs).reverse

/-- `line.partition("#")[0]` -/
def beforeHash (l : Line) : Line := l.takeWhile (fun c => c ≠ '#')

/-- Digits of `int()`, underscores allowed between digits. -/
def natGo (acc : Nat) (afterDigit : Bool) : List Char → Option Nat
  | [] => if afterDigit then some acc else none
  | c :: l =>
    if c.isDigit then natGo (acc * 10 + (c.toNat - 48)) true l
    else if c = '_' && afterDigit then natGo acc false l
    else none

/-- `int()` of a field (no white space); `none` is `ValueError`. -/
def parseInt (s : List Char) : Option Int :=
  match s with
  | '-' :: l => (natGo 0 false l).map (fun n => -(n : Int))
  | '+' :: l => (natGo 0 false l).map (fun n => (n : Int))
  | l => (natGo 0 false l).map (fun n => (n : Int))

/-- `numpy.array` of rows: all of the same length. -/
def array2 {A : Type} (rows : List (List A)) : Option (List (List A)) :=
  if rows.all (fun r => r.length == (rows.headD []).length) then some rows else none

/-! ### SHC files -/

/-- `_strip_shc_comments`, parser_shc.py lines 93-102 (`strip_igrf_comments`, parser_igrf.py
lines 79-88, is the same). -/
def stripComments : List Line → List Line
  | [] => []
  | l :: rest =>
    let s := strip (beforeHash l)
    if s.isEmpty then stripComments rest else s :: rest.map strip

/-- The dictionary of the SHC header. -/
structure ShcHeader (F : Type) where
  degreeMin : Int
  degreeMax : Int
  ntime : Int
  splineOrder : Int
  nstep : Int
  validity : Option (F × F)

/-- `_parse_shc_header_line`, parser_shc.py lines 77-90. -/
def shcHeaderLine {F : Type} (pf : List Char → Option F) (line : Line) : Option (ShcHeader F) := do
  let fields := split line
  let a ← fields[0]? >>= parseInt
  let b ← fields[1]? >>= parseInt
  let c ← fields[2]? >>= parseInt
  let d ← fields[3]? >>= parseInt
  let e ← fields[4]? >>= parseInt
  if ((fields.drop 5).take 2).isEmpty then return ⟨a, b, c, d, e, none⟩
  else do
    let s ← fields[5]? >>= pf
    let f ← fields[6]? >>= pf
    return ⟨a, b, c, d, e, some (s, f)⟩

/-- `_parse_shc_times`, parser_shc.py lines 72-74. -/
def shcTimes {F : Type} (pf : List Char → Option F) (line : Line) : Option (List F) := (split line).mapM pf

/-- One line of `_parse_shc_coefficients`, parser_shc.py lines 65-68 (also parser_mio.py
lines 51-54). -/
def coeffRow {F : Type} (pf : List Char → Option F) (line : Line) : Option (List Int × List F) := do
  let fields := split line
  let nm ← (fields.take 2).mapM parseInt
  let gh ← (fields.drop 2).mapM pf
  return (nm, gh)

/-- `_parse_shc_coefficients`, parser_shc.py lines 61-69. -/
def coeffRows {F : Type} (pf : List Char → Option F) (lines : List Line) :
    Option (List (List Int) × List (List F)) := do
  let rows ← lines.mapM (coeffRow pf)
  let nm ← array2 (rows.map Prod.fst)
  let gh ← array2 (rows.map Prod.snd)
  return (nm, gh)

/-- The dictionary of the parsed SHC file. -/
structure ShcData (F : Type) where
  header : ShcHeader F
  t : List F
  validityStart : F
  validityEnd : F
  nm : List (List Int)
  gh : List (List F)

/-- `times.min()` -/
def minTime {F : Type} [LinearOrder F] : List F → Option F
  | [] => none
  | t :: l => some (l.foldl min t)

/-- `times.max()` -/
def maxTime {F : Type} [LinearOrder F] : List F → Option F
  | [] => none
  | t :: l => some (l.foldl max t)

/-- Default of the validity, parser_shc.py lines 54-57; `⊥` and `⊤` are the infinities (NaN
times are not modelled). -/
def shcValidity {F : Type} [LinearOrder F] [BoundedOrder F] (given : Option (F × F)) (times : List F) :
    Option (F × F) :=
  match given with
  | some v => some v
  | none =>
    if times.length > 1 then do
      let a ← minTime times
      let b ← maxTime times
      some (a, b)
    else some (⊥, ⊤)

/-- `parse_shc_file`, parser_shc.py lines 34-40 and 51-58. -/
def parseShc {F : Type} [LinearOrder F] [BoundedOrder F] (pf : List Char → Option F) (file : List Line) :
    Option (ShcData F) :=
  match stripComments file with
  | l0 :: l1 :: lines => do
    let header ← shcHeaderLine pf l0
    let t ← shcTimes pf l1
    let (vs, ve) ← shcValidity header.validity t
    let (nm, gh) ← coeffRows pf lines
    return ⟨header, t, vs, ve, nm, gh⟩
  | _ => none

/-! ### WMM files -/

/-- One line of the WMM coefficients with its values. -/
structure WmmRow (F : Type) where
  n : Int
  m : Int
  g : F
  h : F
  dg : F
  dh : F

/-- `RE_TERMINATING_LINE`, parser_wmm.py line 33, on a single field. -/
def isTerminator (fields : List (List Char)) : Bool :=
  match fields with
  | [f] => !f.isEmpty && f.all (fun c => c = '9')
  | _ => false

/-- Fields of a line, parser_wmm.py lines 60-61. -/
def wmmRow {F : Type} (pf : List Char → Option F) (fields : List (List Char)) : Option (WmmRow F) := do
  let n ← fields[0]? >>= parseInt
  let m ← fields[1]? >>= parseInt
  let g ← fields[2]? >>= pf
  let h ← fields[3]? >>= pf
  let dg ← fields[4]? >>= pf
  let dh ← fields[5]? >>= pf
  return ⟨n, m, g, h, dg, dh⟩

/-- Entries of a line, parser_wmm.py lines 62-67. -/
def wmmEntries {F : Type} [Zero F] [DecidableEq F] (r : WmmRow F) : List ((Int × Int) × F × F) :=
  (if r.g ≠ 0 ∨ r.dg ≠ 0 then [((r.n, r.m), r.g, r.dg)] else []) ++
    (if r.m > 0 ∧ (r.h ≠ 0 ∨ r.dh ≠ 0) then [((r.n, -r.m), r.h, r.dh)] else [])

/-- The loop of `parse_wmm_coefficients`, parser_wmm.py lines 56-67. -/
def wmmLoop {F : Type} [Zero F] [DecidableEq F] (pf : List Char → Option F) :
    List Line → Option (List ((Int × Int) × F × F))
  | [] => some []
  | l :: rest =>
    let fields := split l
    if isTerminator fields then some []
    else do
      let r ← wmmRow pf fields
      let es ← wmmLoop pf rest
      return wmmEntries r ++ es

/-- Parsed data of WMM files: epoch, index pairs with the two nodes, node times. -/
structure WmmData (F : Type) where
  epoch : F
  nm : List (Int × Int)
  gh : List (List F)
  t : List F

/-- `parse_wmm_file`, parser_wmm.py lines 38-86 (the name and version are only required to
exist; an empty set fails with `IndexError` in line 74). -/
def parseWmm {F : Type} [Field F] [DecidableEq F] (pf : List Char → Option F) (file : List Line) :
    Option (WmmData F) :=
  match file with
  | [] => none
  | l0 :: lines => do
    let fields := split l0
    let epoch ← fields[0]? >>= pf
    let _ ← fields[1]?
    let _ ← fields[2]?
    let es ← wmmLoop pf lines
    if es.isEmpty then none
    else return ⟨epoch, es.map Prod.fst, es.map (fun e => [e.2.1, e.2.1 + e.2.2 * 5]), [epoch, epoch + 5]⟩

/-! ### IGRF files -/

/-- One line of `parse_igrf_coefficients`, parser_igrf.py lines 55-61. -/
def igrfRow {F : Type} (pf : List Char → Option F) (line : Line) : Option ((Int × Int) × List F) := do
  let fields := split line
  let label ← fields[0]?
  let n ← fields[1]? >>= parseInt
  let m ← fields[2]? >>= parseInt
  let c ← (fields.drop 3).mapM pf
  return ((n, if label = ['h'] then -m else m), c)

/-- `coeff[:, -1] = coeff[:, -2] + coeff[:, -1] * 5` on one row, parser_igrf.py line 63;
`IndexError` with less than two columns. -/
def extrapolateRow {F : Type} [Field F] (row : List F) : Option (List F) :=
  match row.reverse with
  | dv :: v :: rest => some ((v + dv * 5) :: v :: rest).reverse
  | _ => none

/-- `parse_igrf_times`, parser_igrf.py lines 67-71. -/
def igrfTimes {F : Type} [Field F] (pf : List Char → Option F) (line : Line) : Option (List F) := do
  let ts ← ((split line).drop 3).dropLast.mapM pf
  let last ← ts.getLast?
  return ts ++ [last + 5]

/-- Parsed data of IGRF files. -/
structure IgrfData (F : Type) where
  nm : List (Int × Int)
  gh : List (List F)
  t : List F

/-- `parse_igrf_file`, parser_igrf.py lines 37-64 (the labels are not used; an empty set
fails with `IndexError` in line 63). -/
def parseIgrf {F : Type} [Field F] (pf : List Char → Option F) (file : List Line) : Option (IgrfData F) :=
  match stripComments file with
  | _ :: l1 :: lines => do
    let t ← igrfTimes pf l1
    let rows ← lines.mapM (igrfRow pf)
    if rows.isEmpty then none
    else do
      let gh ← array2 (rows.map Prod.snd)
      let gh ← gh.mapM extrapolateRow
      return ⟨rows.map Prod.fst, gh, t⟩
  | _ => none

/-! ### EMM files -/

/-- `RE_HEADER_LINE`, parser_emm.py line 37, on a single field. -/
def isDashes (fields : List (List Char)) : Bool :=
  match fields with
  | [f] => !f.isEmpty && f.all (fun c => c = '-')
  | _ => false

/-- `parse_emm_header`, parser_emm.py lines 103-114: the epoch, if any, and the lines left. -/
def emmHeader {F : Type} (pf : List Char → Option F) : List Line → Option F → Option (Option F × List Line)
  | [], ep => some (ep, [])
  | l :: rest, ep =>
    let fields := split l
    if isDashes fields then some (ep, rest)
    else match fields with
      | [k, v] =>
        if k = "Epoch:".toList then do
          let x ← pf v
          emmHeader pf rest (some x)
        else emmHeader pf rest ep
      | _ => emmHeader pf rest ep

/-- One line of `parse_emm_coefficients`, parser_emm.py lines 121-129. -/
def emmRow {F : Type} (pf : List Char → Option F) (line : Line) : Option (List ((Int × Int) × F)) := do
  let fields := split line
  let n ← fields[0]? >>= parseInt
  let m ← fields[1]? >>= parseInt
  let g ← fields[2]? >>= pf
  let h ← fields[3]? >>= pf
  return ((n, m), g) :: (if m > 0 then [((n, -m), h)] else [])

/-- Parsed data of an EMM file: epoch and coefficients. -/
structure EmmData (F : Type) where
  epoch : F
  entries : List ((Int × Int) × F)

/-- `parse_emm_file`, parser_emm.py lines 91-100 and 117-131 (`data["epoch"]` fails with
`KeyError`, the degree of an empty set with `IndexError`). -/
def parseEmm {F : Type} (pf : List Char → Option F) (file : List Line) : Option (EmmData F) := do
  let (ep, lines) ← emmHeader pf file none
  let rows ← lines.mapM (emmRow pf)
  let epoch ← ep
  if rows.flatten.isEmpty then none
  else return ⟨epoch, rows.flatten⟩

/-- The two parts of EMM coefficients: variable with two nodes, constant. -/
structure EmmModel (F : Type) where
  t : List F
  varying : List ((Int × Int) × List F)
  constant : List ((Int × Int) × F)

/-- The check of `combine_emm_variable`, parser_emm.py line 57: true if the sets are
incompatible. -/
def emmIncompatible {F : Type} [DecidableEq F] (st sv : EmmData F) : Bool :=
  decide (st.epoch ≠ sv.epoch) ||
    (List.zip (sv.entries.map Prod.fst) (st.entries.map Prod.fst)).any (fun p => decide (p.1 ≠ p.2))

/-- `combine_emm_coefficients`, parser_emm.py lines 41-88.  The `ValueError` of line 58 is
constructed but not raised, so the outcome of the check does not matter.  A static set
shorter than the variation fails in the arithmetic (lines 66-69; a static set of one row would
be broadcast, which is not modelled), an empty constant part in `min()` (line 83). -/
def combineEmm {F : Type} [Field F] [DecidableEq F] (st sv : EmmData F) : Option (EmmModel F) :=
  let size := sv.entries.length
  let _ignored := emmIncompatible st sv
  if st.entries.length < size then none
  else
    let const := (st.entries.drop size).filter (fun e => decide (e.2 ≠ 0))
    if const.isEmpty then none
    else some ⟨[sv.epoch, sv.epoch + 5],
      List.zipWith (fun s v => (v.1, [s.2, s.2 + v.2 * 5])) (st.entries.take size) sv.entries, const⟩

/-! ### MIO files -/

/-- Header of MIO files. -/
structure MioHeader (F : Type) where
  nmax : Int
  mmax : Int
  pmin : Int
  pmax : Int
  smin : Int
  smax : Int
  thetaNGP : F
  phiNGP : F
  latNGP : F
  lonNGP : F
  height : F
  wolfRatio : F

/-- Python `%` of floats with a positive modulus (exact). -/
def pyMod {F : Type} [Field F] [LinearOrder F] [FloorRing F] (x y : F) : F := x - y * (⌊x / y⌋ : Int)

/-- `parse_swarm_mio_header`, parser_mio.py lines 73-91. -/
def mioHeader {F : Type} [Field F] [LinearOrder F] [FloorRing F] (pf : List Char → Option F) (line : Line) :
    Option (MioHeader F) := do
  let fields := split line
  let colat ← fields[6]? >>= pf
  let phi ← fields[7]? >>= pf
  let a ← fields[0]? >>= parseInt
  let b ← fields[1]? >>= parseInt
  let c ← fields[2]? >>= parseInt
  let d ← fields[3]? >>= parseInt
  let e ← fields[4]? >>= parseInt
  let f ← fields[5]? >>= parseInt
  let h ← fields[8]? >>= pf
  let w ← fields[9]? >>= pf
  return ⟨a, b, c, d, e, f, colat, phi, 90 - colat, 180 - pyMod (180 - phi) 360, h, w⟩

/-- Parsed data of MIO files: index pairs, external and internal coefficients, each row being the
2D Fourier series with the items in C order. -/
structure MioData (F : Type) where
  header : MioHeader F
  nm : List (List Int)
  qs : List (List F)
  gh : List (List F)

/-- The comparison of the halves of the index pairs, parser_mio.py line 65: true if they
match.  A single pair is broadcast, other shapes fail. -/
def halvesMatch (a b : List (List Int)) : Bool :=
  if a.length = b.length then a == b
  else match a with
    | [x] => b.all (fun y => x == y)
    | _ => false

/-- `parse_swarm_mio_file`, parser_mio.py lines 35-70.  `coeff.reshape` accepts the rows, which
have all the same length, only if their size is right; no index pairs fail in `min()`. -/
def parseMio {F : Type} [Field F] [LinearOrder F] [FloorRing F] (pf : List Char → Option F) (file : List Line) :
    Option (MioData F) :=
  match stripComments file with
  | [] => none
  | l0 :: lines => do
    let hd ← mioHeader pf l0
    let (nm, coeff) ← coeffRows pf lines
    if coeff.any (fun r => decide ((r.length : Int) ≠ (hd.smax - hd.smin + 1) * (hd.pmax - hd.pmin + 1) * 2)) then none
    else
      let size := nm.length / 2
      if !halvesMatch (nm.take size) (nm.drop size) ∨ size = 0 then none
      else return ⟨hd, nm.take size, coeff.take size, coeff.drop size⟩

/-! ### Merging of MMA files -/

/-- One set of MMA coefficients: `gh` is indexed by the coefficient, then by the time. -/
structure MmaSet (F : Type) where
  degreeMin : Int
  degreeMax : Int
  nm : List (Int × Int)
  t : List F
  gh : List (List F)
  deriving DecidableEq

/-- The checks of `_merge_coefficients`, loader_mma.py lines 206-218; `none` is `ValueError`, or
`IndexError` for an empty time series. -/
def mmaCheck {F : Type} [LinearOrder F] : MmaSet F → List (MmaSet F) → Option Unit
  | _, [] => some ()
  | prev, item :: tail =>
    if prev.degreeMin ≠ item.degreeMin ∨ prev.degreeMax ≠ item.degreeMax then none
    else if prev.nm ≠ item.nm then none
    else do
      let a ← prev.t.getLast?
      let b ← item.t.head?
      if a > b then none else mmaCheck item tail

/-- `concatenate([...], axis=1)` of arrays with the same number of rows (`none`:
`ValueError`). -/
def concatRows {F : Type} : List (List (List F)) → Option (List (List F))
  | [] => none
  | [a] => some a
  | a :: l => do
    let r ← concatRows l
    if a.length ≠ r.length then none else return List.zipWith (· ++ ·) a r

/-- `_merge_coefficients`, loader_mma.py lines 203-226. -/
def mmaMerge {F : Type} [LinearOrder F] (sets : List (MmaSet F)) : Option (MmaSet F) :=
  match sets with
  | [] => none
  | head :: tail => do
    let _ ← mmaCheck head tail
    let gh ← concatRows (sets.map MmaSet.gh)
    return ⟨head.degreeMin, head.degreeMax, head.nm, (sets.map MmaSet.t).flatten, gh⟩

/-! ### Loaders -/

section loaders
variable {K : Type} [Field K] [LinearOrder K]

/-- Rows of two indices; `IndexError` otherwise (coefficients.py line 351). -/
def toPairs (nm : List (List Int)) : Option (List (Int × Int)) :=
  nm.mapM (fun r => match r with | [n, m] => some (n, m) | _ => none)

/-- `load_coeff_shc`, loader_shc.py lines 93-130, without options: the coefficients with the node
times converted by `toMjd` unless interpolated in decimal years (the times of evaluation are
converted then, coefficients.py line 527).  The misspelt `spline_oder` is put in a dictionary
which is not used any more, so that the spline order is the default 2. -/
def loadShc (toMjd : X K → X K) (decimalYears : Bool) (t : List (X K)) (_splineOrder : Int)
    (nm : List (List Int)) (gh : List (List (X K))) : Option (TimeDep K) := do
  let nm ← toPairs nm
  if t.length = 1 then do
    let c ← gh.mapM (fun r : List (X K) => r[0]?)
    let td ← mkConstant nm c
    return { td with times := td.times.map toMjd }
  else do
    let td ← mkTimeDep nm gh t 2
    if decimalYears then return td else return { td with times := td.times.map toMjd }

end loaders

end Verif.Parsers
