import Verif.Py.Basic
import Mathlib.Algebra.Field.Basic
import Mathlib.Algebra.Order.Field.Basic
import Mathlib.Data.List.Perm.Basic

/-!
# Model of the set-up of `PeakExtraction` (`src/diffpy/srmise/peakextraction.py`)

Data, extraction variables and their defaults, the fitting range, the neighbourhood of a border.
Peak functions, baselines, evaluators and peak lists are numbers (their identity).
-/

namespace Verif.Extraction

open Verif.Py

variable {K : Type}

/-! ### The fitting range -/

/-- The first loop of `getrangeslice` — peakextraction.py:724-726, along the points from index `i` on;
reading past the end is IndexError. -/
def lowLoop [LT K] [DecidableLT K] (t : K) : List K → ℕ → Res ℕ
  | [], _ => .error .index
  | a :: as, i => if a < t then lowLoop t as (i + 1) else .ok i

/-- The second loop — peakextraction.py:727-729.  The argument lists `x[hi-1], x[hi-2], …`; below 0 the
index wraps around, so every point is met a second time before IndexError. -/
def hiLoop [LT K] [DecidableLT K] (t : K) : List K → ℤ → Res ℤ
  | [], _ => .error .index
  | a :: as, i => if t < a then hiLoop t as (i - 1) else .ok i

/-- `getrangeslice()` — peakextraction.py:720-730, for `rng = [a, b]`. -/
def getrangeslice [LinearOrder K] (x : List K) (a b : K) : Res (ℕ × ℤ) :=
  match x.head?, x.getLast? with
  | some x0, some x1 =>
    match lowLoop (max x0 a) x 0 with
    | .error e => .error e
    | .ok lo =>
      match hiLoop (min x1 b) (x.reverse ++ x.reverse) x.length with
      | .error e => .error e
      | .ok hi => .ok (lo, hi)
  | _, _ => .error .index

/-! ### Data and variables -/

/-- `effective_dy`: unset, a scalar, an array. -/
inductive EffDy (K : Type)
  | unset
  | scalar (v : K)
  | array (l : List K)
  deriving DecidableEq

/-- `baseline`: a `BaselineFunction` (whose parameters are still to be estimated) or a `Baseline`. -/
inductive Base
  | func (id : ℕ)
  | inst (id : ℕ)
  deriving DecidableEq

/-- The members of a `PeakExtraction` — peakextraction.py:30-66, 96-118. -/
structure PX (K : Type) where
  x : Option (List K) := none
  y : Option (List K) := none
  dx : Option (List K) := none
  dy : Option (List K) := none
  effdy : EffDy K := .unset
  rng : Option (Option K × Option K) := none
  pf : Option ℕ := none
  initialPeaks : Option ℕ := none
  baseline : Option Base := none
  cres : Option K := none
  errorMethod : Option ℕ := none
  deriving DecidableEq

/-- `setdata(x, y, dx, dy)` — peakextraction.py:120-138. -/
def setdata [Zero K] (s : PX K) (x y : List K) (dx dy : Option (List K)) : Res Unit × PX K :=
  if x.length ≠ y.length then (.error .value, s)
  else
    let dx' := dx.getD (x.map (fun _ => 0))
    let dy' := dy.getD (x.map (fun _ => 0))
    let s' := { s with x := some x, y := some y, dx := some dx', dy := some dy' }
    if x.length ≠ dx'.length ∨ x.length ≠ dy'.length then (.error .value, s') else (.ok (), s')

/-- A keyword argument of `setvars`; `other` is any name that is not an extraction variable. -/
inductive Kw (K : Type)
  | effective_dy (v : EffDy K)
  | rng (v : Option (Option K × Option K))
  | pf (v : Option ℕ)
  | initial_peaks (v : Option ℕ)
  | baseline (v : Option Base)
  | cres (v : Option K)
  | error_method (v : Option ℕ)
  | other (name : String)

/-- `setattr(self, k, v)` for an extraction variable — peakextraction.py:168; `none` if it is not one. -/
def setOne (s : PX K) : Kw K → Option (PX K)
  | .effective_dy v => some { s with effdy := v }
  | .rng v => some { s with rng := v }
  | .pf v => some { s with pf := v }
  | .initial_peaks v => some { s with initialPeaks := v }
  | .baseline v => some { s with baseline := v }
  | .cres v => some { s with cres := v }
  | .error_method v => some { s with errorMethod := v }
  | .other _ => none

/-- The loop of `setvars` — peakextraction.py:162-171. -/
def setLoop : List (Kw K) → PX K → Res Unit × PX K
  | [], s => (.ok (), s)
  | k :: ks, s =>
    match setOne s k with
    | none => (.error .value, s)
    | some s' => setLoop ks s'

/-- What the defaults need from outside: `estimate_parameters` followed by `actualize` of a baseline
function on the selected data; the identities of the default peak function (made from the maximum width; its
constructor refuses a width that is not positive — peaks/gaussianoverr.py), baseline (`Polynomial(degree=-1)`),
evaluator (`AIC`) and empty peak list. -/
structure Defaults (K : Type) where
  estimate : ℕ → List K → List K → Res ℕ
  gaussianOverR : K → ℕ
  zeroBaseline : ℕ
  aic : ℕ
  noPeaks : ℕ

section

variable [Field K] [LinearOrder K]

/-- `self.x[0]`, `self.x[-1]`: TypeError without data, IndexError on empty data. -/
def ends (s : PX K) : Res (K × K) :=
  match s.x with
  | none => .error .type
  | some x => match x.head?, x.getLast? with
    | some a, some b => .ok (a, b)
    | _, _ => .error .index

/-- Default `cres` — peakextraction.py:203-204.  (A state that raises is left as it is at that point.) -/
def defCres (s : PX K) : Res Unit × PX K :=
  match s.cres with
  | some _ => (.ok (), s)
  | none => match ends s, s.x with
    | .ok (a, b), some x => (.ok (), { s with cres := some (4 * (b - a) / x.length) })
    | .error e, _ => (.error e, s)
    | _, _ => (.error .type, s)

/-- `np.max(l) - np.min(l)`; ValueError on an empty array. -/
def spread (l : List K) : Res K :=
  match l with
  | [] => .error .value
  | a :: as => .ok (as.foldl max a - as.foldl min a)

/-- Default `effective_dy` — peakextraction.py:206-214. -/
def defEffdy (s : PX K) : Res Unit × PX K :=
  match s.effdy, s.x, s.y, s.dy with
  | .unset, some x, some y, some dy =>
    if dy.all (fun v => decide (0 < v)) then (.ok (), { s with effdy := .array dy })
    else match spread y with
      | .error e => (.error e, s)
      | .ok w => (.ok (), { s with effdy := .array (x.map (fun _ => 5 / 100 * w)) })
  | .unset, _, _, _ => (.error .type, s)
  | .scalar v, some x, _, _ =>
    if 0 < v then (.ok (), { s with effdy := .array (x.map (fun _ => v)) }) else (.ok (), s)
  | .scalar v, none, _, _ => if 0 < v then (.error .type, s) else (.ok (), s)
  | .array _, _, _, _ => (.ok (), s)

/-- Default `pf` — peakextraction.py:216-220. -/
def defPf (D : Defaults K) (s : PX K) : Res Unit × PX K :=
  match s.pf with
  | some _ => (.ok (), s)
  | none => match ends s with
    | .error e => (.error e, s)
    | .ok (a, b) => if b - a ≤ 0 then (.error .value, s)
      else (.ok (), { s with pf := some (D.gaussianOverR (b - a)) })

/-- Default `rng` — peakextraction.py:222-228; the ends of the data are only read when needed. -/
def defRng (s : PX K) : Res Unit × PX K :=
  match s.rng with
  | some (some _, some _) => (.ok (), s)
  | _ => match ends s with
    | .error e => (.error e, s)
    | .ok (a, b) =>
      (.ok (), { s with rng := some (some ((s.rng.bind Prod.fst).getD a), some ((s.rng.bind Prod.snd).getD b)) })

/-- `self.x[s]`, `self.y[s]` for the selected range (the bounds are never negative when `getrangeslice`
returns, see `c40_range_slice`). -/
def selected (s : PX K) : Res (List K × List K) :=
  match s.x, s.y, s.rng with
  | some x, some y, some (some a, some b) =>
    match getrangeslice x a b with
    | .error e => .error e
    | .ok (lo, hi) => .ok (getSlice x (some (lo, hi.toNat)), getSlice y (some (lo, hi.toNat)))
  | _, _, _ => .error .type

/-- Default `baseline` — peakextraction.py:231-245.  Only NotImplementedError and SrMiseEstimationError are
caught. -/
def defBaseline (D : Defaults K) (s : PX K) : Res Unit × PX K :=
  match s.baseline with
  | some (.inst _) => (.ok (), s)
  | none => (.ok (), { s with baseline := some (.inst D.zeroBaseline) })
  | some (.func f) =>
    match selected s with
    | .error e => (.error e, s)
    | .ok (xs, ys) =>
      match D.estimate f xs ys with
      | .ok b => (.ok (), { s with baseline := some (.inst b) })
      | .error .notImplemented => (.ok (), { s with baseline := some (.inst D.zeroBaseline) })
      | .error .estimation => (.ok (), { s with baseline := some (.inst D.zeroBaseline) })
      | .error e => (.error e, s)

/-- Defaults of `error_method` and `initial_peaks` — peakextraction.py:247-253. -/
def defRest (D : Defaults K) (s : PX K) : PX K :=
  { s with errorMethod := some (s.errorMethod.getD D.aic), initialPeaks := some (s.initialPeaks.getD D.noPeaks) }

/-- Sequencing: stop at the first exception. -/
def andThen (r : Res Unit × PX K) (f : PX K → Res Unit × PX K) : Res Unit × PX K :=
  match r with
  | (.error e, s) => (.error e, s)
  | (.ok (), s) => f s

/-- `defaultvars()` — peakextraction.py:174-253, called without arguments (as everywhere in the package;
`defaultvars("…")` by the user is `Pdf.resetvars`). -/
def defaultvars (D : Defaults K) (s : PX K) : Res Unit × PX K :=
  andThen (andThen (andThen (andThen (andThen (defCres s) defEffdy) (defPf D)) defRng) (defBaseline D))
    (fun s => (.ok (), defRest D s))

/-- `setvars(**kwds)` — peakextraction.py:140-172. -/
def setvars (D : Defaults K) (s : PX K) (kws : List (Kw K)) : Res Unit × PX K :=
  andThen (setLoop kws s) (defaultvars D)

end

/-! ### The neighbourhood of a border -/

/-- `peak_pos.searchsorted(border_x)` — peakextraction.py:966-971, 1119-1124. -/
def pivot [LinearOrder K] (pos : List K) (border : K) : ℕ := (pos.takeWhile (fun p => decide (p < border))).length

/-- The indices `near_peaks` — peakextraction.py:976-1002, 1129-1155, for `n` peaks. -/
def nearIdx (n p : ℕ) : List ℕ :=
  (if p = 0 then [] else [p - 1]) ++ (if p = n then [] else [p])

/-- The indices `other_peaks` — peakextraction.py:1004-1009, 1157-1162; `np.arange(0, -1)` is empty. -/
def otherIdx (n p : ℕ) : List ℕ := List.range (p - 1) ++ List.range' (p + 1) (n - (p + 1))

/-- `left_data` — peakextraction.py:980-990: `lo` is the start of the cluster. -/
def leftData [LinearOrder K] (x pos : List K) (lo p : ℕ) : ℕ :=
  if p ≤ 1 then lo
  else match pos[p - 2]? with
    | some v => (x.takeWhile (fun a => decide (a < v))).length - 1
    | none => 0

/-- `right_data` — peakextraction.py:992-1002: `hi` is the end of the cluster (exclusive). -/
def rightData [LinearOrder K] (x pos : List K) (hi n p : ℕ) : ℕ :=
  if p = n ∨ p + 1 = n then hi - 1
  else match pos[p + 1]? with
    | some v => min x.length ((x.takeWhile (fun a => decide (a < v))).length + 1)
    | none => 0

end Verif.Extraction
