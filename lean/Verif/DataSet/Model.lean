import Verif.Py.Basic
import Mathlib.Algebra.Order.Field.Basic
import Mathlib.Algebra.Order.Ring.Rat
import Mathlib.Tactic.NormNum

/-!
# Model of `src/diffpy/srmise/pdfdataset.py`

The data part of the text is a list of lines, a line the list of its whitespace-separated words.  `float(word)` is
`parse : W → Option K` (`none`: ValueError), the pattern `^[+-]?(NaN|Inf)\b` is `infnan : W → Bool`.  Words and numbers
are any types.  NaN is not modelled as a number.  The header is not modelled.
-/

namespace Verif.DataSet

open Verif.Py

variable {K W : Type}

/-- The attributes of a `PDFDataSet` — pdfdataset.py:121-142. -/
structure DS (K : Type) where
  robs : List K
  gobs : List K
  drobs : List K
  dgobs : List K
  stype : Bool        -- 'X'
  qmax : K
  qdamp : K
  qbroad : K
  spdiameter : Option K
  dscale : K
  rmin : Option K
  rmax : Option K
  filename : Option String
  metadata : List (String × K)

/-- The initial values — pdfdataset.py:121-142; `qdamp0` is 0.001. -/
def clear [Field K] (qdamp0 : K) : DS K :=
  ⟨[], [], [], [], true, 0, qdamp0, 0, none, 1, none, none, none, []⟩

/-! ### Variables -/

/-- `setvar(var, value)` — pdfdataset.py:144-168; `value` is what `float` makes of the argument; `strip` is
`str.strip`. -/
def setvar (strip : String → String) (d : DS K) (var : String) (value : Option K) : DS K × Option Err :=
  match value with
  | none => (d, some .value)
  | some v =>
    if strip var = "qdamp" then ({ d with qdamp := v }, none)
    else if strip var = "qbroad" then ({ d with qbroad := v }, none)
    else if strip var = "dscale" then ({ d with dscale := v }, none)
    else (d, some .key)

/-- `getvar(var)` — pdfdataset.py:170-192. -/
def getvar (strip : String → String) (d : DS K) (var : String) : Res K :=
  if strip var = "qdamp" then .ok d.qdamp
  else if strip var = "qbroad" then .ok d.qbroad
  else if strip var = "dscale" then .ok d.dscale
  else .error .key

/-! ### Reading -/

/-- The variables of the loop over the lines — pdfdataset.py:303-305. -/
structure Rd (K : Type) where
  robs : List K
  gobs : List K
  drobs : List K
  dgobs : List K
  hasDr : Bool
  hasDg : Bool

/-- One column of uncertainties at one line: the flag and the list — pdfdataset.py:313-317 and 319-323. -/
def column [Field K] [LinearOrder K] (parse : W → Option K) (infnan : W → Bool) (has : Bool) (acc : List K)
    (w : Option W) : Res (Bool × List K) :=
  match w with
  | none => .ok (false, acc)
  | some t =>
    if has && !infnan t then
      match parse t with
      | none => .error .value
      | some v => .ok (decide (0 < v), acc ++ [v])
    else .ok (false, acc)

/-- One turn of the loop — pdfdataset.py:307-323: the state reached, and the exception if one is raised. -/
def readLine [Field K] [LinearOrder K] (parse : W → Option K) (infnan : W → Bool) (s : Rd K) (v : List W) :
    Rd K × Option Err :=
  match v with
  | [] => (s, some .index)
  | w0 :: v1 =>
    match parse w0 with
    | none => (s, some .value)
    | some r =>
      let s := { s with robs := s.robs ++ [r] }
      match v1 with
      | [] => (s, some .index)
      | w1 :: v2 =>
        match parse w1 with
        | none => (s, some .value)
        | some g =>
          let s := { s with gobs := s.gobs ++ [g] }
          match column parse infnan s.hasDr s.drobs v2[0]? with
          | .error e => (s, some e)
          | .ok (h, l) =>
            let s := { s with hasDr := h, drobs := l }
            match column parse infnan s.hasDg s.dgobs v2[1]? with
            | .error e => (s, some e)
            | .ok (h, l) => ({ s with hasDg := h, dgobs := l }, none)

/-- The loop — pdfdataset.py:307. -/
def readLines [Field K] [LinearOrder K] (parse : W → Option K) (infnan : W → Bool) :
    Rd K → List (List W) → Rd K × Option Err
  | s, [] => (s, none)
  | s, v :: rest =>
    match readLine parse infnan s v with
    | (s, some e) => (s, some e)
    | (s, none) => readLines parse infnan s rest

/-- The data part of `readStr` — pdfdataset.py:299-335, on an object whose header has been read.  `databody.split`
always gives at least one line: no lines is one empty line.  ValueError and IndexError become PDFDataFormatError, here
`dataFormat`. -/
def readData [Field K] [LinearOrder K] (parse : W → Option K) (infnan : W → Bool) (d : DS K) (lines : List (List W)) :
    DS K × Option Err :=
  let lines := if lines.isEmpty then [[]] else lines
  let (s, e) := readLines parse infnan ⟨d.robs, d.gobs, d.drobs, d.dgobs, true, true⟩ lines
  let d := { d with robs := s.robs, gobs := s.gobs, drobs := s.drobs, dgobs := s.dgobs }
  match e with
  | some _ => (d, some .dataFormat)
  | none =>
    let d := { d with drobs := if s.hasDr then d.drobs else List.replicate d.robs.length 0 }
    let d := { d with dgobs := if s.hasDg then d.dgobs else List.replicate d.robs.length 0 }
    ({ d with rmin := d.robs.head?, rmax := d.robs.getLast? }, none)

/-! ### Writing -/

/-- The data lines of `writeStr` — pdfdataset.py:405-407; `fmt` is `"%g" % v`.  Simplification: the lists have one
length (else IndexError or a cut list). -/
def dataLines (fmt : K → W) (d : DS K) : List (List W) :=
  List.zipWith (fun (p : K × K) (q : K × K) => [fmt p.1, fmt p.2, fmt q.1, fmt q.2]) (d.robs.zip d.gobs) (d.drobs.zip d.dgobs)

/-- `copy()` — pdfdataset.py:413-454, on a fresh object. -/
def copy [Field K] (qdamp0 : K) (d : DS K) : DS K :=
  { (clear qdamp0 : DS K) with
    robs := d.robs, gobs := d.gobs, drobs := d.drobs, dgobs := d.dgobs, stype := d.stype, qmax := d.qmax,
    qdamp := d.qdamp, qbroad := d.qbroad, dscale := d.dscale, rmin := d.rmin, rmax := d.rmax,
    filename := d.filename, metadata := d.metadata }

end Verif.DataSet
