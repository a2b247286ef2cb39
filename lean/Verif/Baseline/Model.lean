import Verif.Py.Basic
import Mathlib.Data.Real.Basic
import Mathlib.Algebra.Order.Field.Basic
import Mathlib.Data.Sign.Basic

/-!
# Model of `src/diffpy/srmise/baselines/`

Numbers are elements of a field `K` (ordered where the code compares).
-/

namespace Verif.Baseline

open Verif.Py

/-! ### Polynomial -/

/-- `self.degree` — baselines/polynomial.py:44-50: any negative degree becomes −1. -/
def normDegree (degree : ℤ) : ℤ := if degree < 0 then -1 else degree

/-- `npars`, the length of the parameter dictionary — polynomial.py:53-55. -/
def polyNpars (degree : ℤ) : ℕ := (normDegree degree + 1).toNat

/-- `parameterdict` — polynomial.py:53-55: the index of `a_d` for each `d`. -/
def polyDict (degree : ℤ) : List (ℕ × ℤ) :=
  (List.range (polyNpars degree)).map (fun d => (d, normDegree degree - d))

section

variable {K : Type} [Field K]

/-- `np.polyval(pars, r)` at one point (Horner's scheme). -/
def polyval (pars : List K) (r : K) : K := pars.foldl (fun y pv => y * r + pv) 0

/-- `_valueraw` — polynomial.py:202-226. -/
def polyValue (degree : ℤ) (pars r : List K) : Res (List K) :=
  if pars.length ≠ polyNpars degree then .error .value else .ok (r.map (polyval pars))

/-- `_jacobianraw` — polynomial.py:127-164. -/
def polyJacobian (degree : ℤ) (pars r : List K) (free : List Bool) : Res (List (Option (List K))) :=
  if pars.length ≠ polyNpars degree then .error .value
  else if free.length ≠ polyNpars degree then .error .value
  else if free.all (fun f => !f) then .ok (List.replicate (polyNpars degree) none)
  else .ok ((List.range (polyNpars degree)).map
    (fun idx => if free.getD idx false then some (r.map (· ^ idx)) else none))

/-- The points the slope is estimated from — polynomial.py:113-114: the lowest tenth, at least one; `as`
is numpy's argsort. -/
def cutIdx (as : List K → List ℕ) (y : List K) : List ℕ := (as y).take (max (y.length / 10) 1)

/-- `la.lstsq` with the single column `r`, without rank deficiency of a positive size: the solution is
`Σ r y / Σ r²` (0 for a zero column, the minimum-norm solution). -/
def lstsq1 (pts : List (K × K)) : K :=
  (pts.map (fun p => p.1 * p.2)).sum / (pts.map (fun p => p.1 ^ 2)).sum

/-- `estimate_parameters` — polynomial.py:73-125. -/
def polyEstimate (as : List K → List ℕ) (degree : ℤ) (r y : List K) : Res (List K) :=
  if 1 < normDegree degree then .error .notImplemented
  else if r.length ≠ y.length then .error .value
  else if normDegree degree = -1 then .ok []
  else if normDegree degree = 0 then .ok [0]
  else .ok [lstsq1 ((cutIdx as y).filterMap (fun i => (r.zip y)[i]?)), 0]

end

/-! ### NanoSpherical -/

section

variable {K : Type} [Field K] [LinearOrder K]

/-- The expression in parentheses in terms of `rdivR` — baselines/nanospherical.py:162, 281. -/
def gammaOf (x : K) : K := 1 - 3 / 4 * x + 1 / 16 * x ^ 3

/-- `_valueraw2` — baselines/nanospherical.py:260-281. -/
def nanoRaw (s R r : K) : K := -(abs s) * r * gammaOf (r / abs R)

/-- `_jacobianrawscale` — nanospherical.py:138-162. -/
def nanoJacScaleRaw (_s R r : K) : K := -(SignType.sign R : K) * r * gammaOf (r / abs R)

/-- `_jacobianrawradius` — nanospherical.py:164-186. -/
def nanoJacRadiusRaw (s R r : K) : K :=
  (SignType.sign R : K) * abs s * (3 * r ^ 2 * (r ^ 2 - 4 * abs R ^ 2)) / (16 * abs R ^ 4)

/-- The scalar branch of `_valueraw` and `_jacobianraw`: 0 outside the domain — nanospherical.py:113-124,
248-252. -/
def nanoScalar (f : K → K → K → K) (s R r : K) : K := if r ≤ 0 ∨ 2 * R ≤ r then 0 else f s R r

/-- `_getdomain` — nanospherical.py:283-300: `searchsorted` on the (sorted) grid. -/
def nanoDomain (R : K) (r : List K) : ℕ × ℕ :=
  ((r.takeWhile (fun v => decide (v ≤ 0))).length, (r.takeWhile (fun v => decide (v < 2 * R))).length)

/-- The array branch: zeros, overwritten on the slice — nanospherical.py:125-133, 253-257. -/
def nanoArray (f : K → K → K → K) (s R : K) (r : List K) : Res (List K) :=
  setSlice (r.map (fun _ => 0)) (some (nanoDomain R r)) ((getSlice r (some (nanoDomain R r))).map (f s R))

/-- `_valueraw` on an array — nanospherical.py:245-258. -/
def nanoValue (pars r : List K) : Res (List K) :=
  match pars with
  | [s, R] => nanoArray nanoRaw s R r
  | _ => .error .value

/-- `_jacobianraw` on an array — nanospherical.py:87-136. -/
def nanoJacobian (pars r : List K) (free : List Bool) : Res (List (Option (List K))) :=
  match pars, free with
  | [s, R], [f0, f1] =>
    match (if f0 then (nanoArray nanoJacScaleRaw s R r).map some else .ok none),
          (if f1 then (nanoArray nanoJacRadiusRaw s R r).map some else .ok none) with
    | .ok a, .ok b => .ok [a, b]
    | .error e, _ => .error e
    | _, .error e => .error e
  | _, _ => .error .value

/-- `_transform_parametersraw` — nanospherical.py:188-224; the only format is "internal". -/
def nanoTransform (pars : List K) (inF outF : String) : Res (List K) :=
  if inF ≠ "internal" then .error .value
  else match pars with
  | a :: b :: rest => if outF ≠ "internal" then .error .value else .ok (abs a :: abs b :: rest)
  | _ => .error .index

end

/-! ### Arbitrary -/

/-- `npars` of `Arbitrary(npars, ...)` — baselines/arbitrary.py:60-73: the dictionary has the keys
`a_0, ..., a_npars`. -/
def arbNpars (npars : ℤ) : Res ℕ := if npars < 0 then .error .value else .ok (npars.toNat + 1)

/-- `_valueraw` — arbitrary.py:225-253. -/
def arbValue {K : Type} (n : ℕ) (valuef : List K → List K → Res (List K)) (pars r : List K) : Res (List K) :=
  if pars.length ≠ n then .error .value else valuef pars r

/-- `_jacobianraw` — arbitrary.py:144-187.  Without a Jacobian function, `(pars is True).sum()` is an
attribute of a bool: AttributeError. -/
def arbJacobian {K J : Type} (n : ℕ) (jacobianf : Option (List K → List K → List Bool → Res J))
    (pars r : List K) (free : List Bool) : Res J :=
  match jacobianf with
  | none => .error .attribute
  | some f =>
    if pars.length ≠ n then .error .value
    else if free.length ≠ n then .error .value
    else f pars r free

/-- `estimate_parameters` — arbitrary.py:116-142. -/
def arbEstimate {K : Type} (estimatef : Option (List K → List K → Res (List K))) (r y : List K) : Res (List K) :=
  match estimatef with
  | none => .error .notImplemented
  | some f => match f r y with
    | .ok p => .ok p
    | .error _ => .error .estimation

/-! ### FromSequence -/

/-- How the sequences are given. -/
inductive Source
  | file (arg : ℕ)
  | lists
  deriving DecidableEq

/-- Dispatch on the arguments — baselines/fromsequence.py:66-85: the number of positional arguments and the
names of the keyword arguments. `file 0` is a positional file name, `file 1` the keyword. -/
def signature (nargs : ℕ) (kwds : List String) : Res Source :=
  if nargs = 1 ∧ kwds = [] then .ok (.file 0)
  else if nargs = 0 ∧ "file" ∈ kwds ∧ "x" ∉ kwds ∧ "y" ∉ kwds then .ok (.file 1)
  else if nargs = 2 ∧ kwds = [] then .ok .lists
  else if nargs = 0 ∧ "x" ∈ kwds ∧ "y" ∈ kwds ∧ "file" ∉ kwds then .ok .lists
  else .error .type

/-- Bytes that `strip()` and `split()` regard as blank. -/
def blank (c : Char) : Bool := c = ' ' || c = '\n' || c = '\t' || c = '\r' || c = '\x0b' || c = '\x0c'

/-- `re.search(rb"^[^#]", data, re.M).end()` — fromsequence.py:263-265: the position *after* the first
character that begins a line and is not `#`.  `atStart` tells whether the position begins a line. -/
def headerEnd : Bool → ℕ → List Char → Option ℕ
  | _, _, [] => none
  | true, n, c :: cs => if c ≠ '#' then some (n + 1) else headerEnd false (n + 1) cs
  | false, n, c :: cs => headerEnd (c = '\n') (n + 1) cs

/-- `strip()`. -/
def strip (s : List Char) : List Char := ((s.dropWhile blank).reverse.dropWhile blank).reverse

/-- Fields of a line, `line.split()`. -/
def fields : List Char → List Char → List (List Char)
  | [], cur => if cur = [] then [] else [cur.reverse]
  | c :: cs, cur =>
    if blank c then (if cur = [] then fields cs [] else cur.reverse :: fields cs [])
    else fields cs (c :: cur)

/-- `data.split(b"\n")`. -/
def splitLines : List Char → List Char → List (List Char)
  | [], cur => [cur.reverse]
  | c :: cs, cur => if c = '\n' then cur.reverse :: splitLines cs [] else splitLines cs (c :: cur)

/-- `readxy` on the content of the file — fromsequence.py:250-278; `num` is `float`. -/
def readxy {K : Type} (num : List Char → Option K) (data : List Char) : Res (List (K × K)) :=
  let body := match headerEnd true 0 data with
    | some n => strip (data.drop n)
    | none => data
  (splitLines body []).mapM (fun line =>
    match (fields line [])[0]?.bind num, (fields line [])[1]?.bind num with
    | some a, some b => .ok (a, b)
    | _, _ => .error .dataFormat)

end Verif.Baseline
