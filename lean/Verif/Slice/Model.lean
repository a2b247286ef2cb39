import Mathlib.Tactic.Ring
import Mathlib.Tactic.Linarith
import Verif.Py.Basic

/-!
# Model of `ModelParts.__getitem__` and `ModelParts.covariance` (`src/diffpy/srmise/modelparts.py`)

A model is the list of the part objects it holds (identities); what is returned holds the same objects.
-/

namespace Verif.Parts.Slice

open Verif.Py

variable {α V : Type}

/-- What stands between the brackets: an integer, a slice, a tuple of two (numbers or `None`), any other tuple. -/
inductive Index
  | int (i : ℤ)
  | slice (start stop step : Option ℤ)
  | pair (start stop : Option ℤ)
  | tuple

/-- What is returned: a part, or a model of the same class. -/
inductive Got (α : Type)
  | part (p : α)
  | parts (l : List α)

/-- The start of a slice of Python (`PySlice_AdjustIndices`): negative numbers count from the end, what lies outside is brought
to the nearest end. -/
def startOf (n : ℕ) (start : Option ℤ) (step : ℤ) : ℤ :=
  match start with
  | none => if step < 0 then (n : ℤ) - 1 else 0
  | some a =>
    if a < 0 then (if a + n < 0 then (if step < 0 then -1 else 0) else a + n)
    else if (n : ℤ) ≤ a then (if step < 0 then (n : ℤ) - 1 else n) else a

/-- The end of a slice of Python. -/
def stopOf (n : ℕ) (stop : Option ℤ) (step : ℤ) : ℤ :=
  match stop with
  | none => if step < 0 then -1 else n
  | some a =>
    if a < 0 then (if a + n < 0 then (if step < 0 then -1 else 0) else a + n)
    else if (n : ℤ) ≤ a then (if step < 0 then (n : ℤ) - 1 else n) else a

/-- How many elements a slice has. -/
def countOf (a b s : ℤ) : ℕ :=
  if s < 0 then (if b < a then ((a - b - 1) / (-s) + 1).toNat else 0)
  else (if a < b then ((b - a - 1) / s + 1).toNat else 0)

/-- `list.__getitem__(slice(start, stop, step))`: step 0 is ValueError. -/
def listSlice (m : List α) (start stop step : Option ℤ) : Res (List α) :=
  let s := step.getD 1
  if s = 0 then .error .value
  else
    let a := startOf m.length start s
    let b := stopOf m.length stop s
    .ok ((List.range (countOf a b s)).filterMap (fun k : ℕ => m[(a + (k : ℤ) * s).toNat]?))

/-- `list.__getitem__(i)`. -/
def listItem (m : List α) (i : ℤ) : Res α :=
  let j := if i < 0 then i + m.length else i
  if j < 0 then .error .index
  else match m[j.toNat]? with
    | none => .error .index
    | some p => .ok p

/-- `model[index]` — modelparts.py:429-436. -/
def getItem (m : List α) : Index → Res (Got α)
  | .pair a b => (listSlice m a b none).map .parts
  | .slice a b c => (listSlice m a b c).map .parts
  | .int i => (listItem m i).map .part
  | .tuple => .error .type

/-- `formats[i] = v`. -/
def setItem (l : List V) (i : ℤ) (v : V) : Res (List V) :=
  let j := if i < 0 then i + l.length else i
  if j < 0 then .error .index
  else if l.length ≤ j.toNat then .error .index
  else .ok (l.set j.toNat v)

/-- The loop over the keywords — modelparts.py:400-408; `int` is Python's, of a text. -/
def formatsFrom (int : List Char → Option ℤ) : List (List Char × V) → List V → Res (List V)
  | [], l => .ok l
  | (k, v) :: ks, l =>
    match int (k.drop 1) with
    | none => .error .value
    | some i =>
      match setItem l i v with
      | .error e => .error e
      | .ok l => formatsFrom int ks l

/-- `model.covariance(format, **kwds)` — modelparts.py:374-410: the matrix, or `None`. -/
def covariance {M : Type} (int : List Char → Option ℤ) (m : List α) (format : V) (kwds : List (List Char × V)) : Res (Option M) :=
  match formatsFrom int kwds (m.map (fun _ => format)) with
  | .error e => .error e
  | .ok _ => .ok none

end Verif.Parts.Slice
