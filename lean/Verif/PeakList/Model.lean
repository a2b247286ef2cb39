import Verif.Parts.Model
import Mathlib.Algebra.Order.Field.Basic

/-!
# Model of `Peaks` and `Peak.scale_at` (`src/diffpy/srmise/peaks/base.py:127-271`)

A peak is a `Part`.  What a peak function contributes (`scale_at`, value at one point) is passed as an
argument: any function.  `numpy.ndarray.argsort` is passed as an argument as well (`as`); what numpy
promises of it is `SortsKeys`.
-/

namespace Verif.PeakList

open Verif.Py Verif.Parts

variable {K : Type}

/-- `p["position"]` — every peak function has this parameter (base.py:88-92). -/
def pos [Zero K] (p : Part K) : K :=
  match p.get (.name "position") with
  | .ok v => v
  | .error _ => 0

/-- What `a.argsort()` promises: a permutation of the indices along which the keys do not decrease
(no promise about the order of equal keys). -/
def SortsKeys [LE K] (as : List K → List ℕ) : Prop :=
  ∀ keys : List K, (as keys).Perm (List.range keys.length) ∧
    ∀ (i j : ℕ) a b ka kb, i < j → (as keys)[i]? = some a → (as keys)[j]? = some b →
      keys[a]? = some ka → keys[b]? = some kb → ka ≤ kb

/-- The loop checking whether keys are already sorted — base.py:141-145. -/
def sortedLoop [LinearOrder K] : List K → Bool
  | a :: b :: l => if b < a then false else sortedLoop (b :: l)
  | _ => true

/-- `Peaks.argsort(key)` — base.py:136-150. -/
def argsort [LinearOrder K] (as : List K → List ℕ) (key : Part K → K) (ps : List (Part K)) : List ℕ :=
  let keys := ps.map key
  if sortedLoop keys then List.range keys.length else as keys

/-- `Peaks.sort(reverse, key)` — base.py:205-210.  The argument `reverse` is not used. -/
def sort (as : List K → List ℕ) (_reverse : Bool) (key : Part K → K) (ps : List (Part K)) :
    List (Part K) :=
  (as (ps.map key)).filterMap (fun idx => ps[idx]?)

/-- `np.any((self.pars != adj_pars) & ~self.free)` — base.py:267. -/
def fixedChanged [DecidableEq K] : List K → List K → List Bool → Bool
  | a :: as, b :: bs, f :: fs => (decide (a ≠ b) && !f) || fixedChanged as bs fs
  | _, _, _ => false

/-- `Peak.scale_at(x, scale)` — base.py:239-271.  `sc` is the owner's `scale_at(pars, x, scale)`. -/
def scaleAt [DecidableEq K] (sc : Part K → K → K → Res (List K)) (p : Part K) (x scale : K) :
    Res Bool × Part K :=
  if p.free.all (fun f => !f) then (.ok false, p)
  else match sc p x scale with
    | .error .scaling => (.ok false, p)
    | .error e => (.error e, p)
    | .ok adj =>
      if fixedChanged p.pars adj p.free then (.ok false, p)
      else (.ok true, { p with pars := adj })

section Field

variable [Field K] [LinearOrder K]

/-- `self.value(x)` at one point `x`: `val p x` is the value of one peak — modelparts.py:363-366. -/
def valueAt (val : Part K → K → K) (ps : List (Part K)) (x : K) : K := (ps.map (fun p => val p x)).sum

/-- First attempt at scaling — base.py:178-187.  Returns which peaks were scaled, and the fixed
height. -/
def firstAttempt (sc : Part K → K → K → Res (List K)) (val : Part K → K → K) (x scale : K) :
    List (Part K) → Res (List Bool × K) × List (Part K)
  | [] => (.ok ([], 0), [])
  | p :: ps =>
    match scaleAt sc p x scale with
    | (.error e, p') => (.error e, p' :: ps)
    | (.ok b, p') =>
      match firstAttempt sc val x scale ps with
      | (.error e, ps') => (.error e, p' :: ps')
      | (.ok (bs, h), ps') => (.ok (b :: bs, if b then h else val p' x + h), p' :: ps')

/-- `Peaks.match_at(x, y)` — base.py:152-203.  The loop of the second attempt iterates over the pair
`(self, scaled)`: unpacking `self` into `peak, s` raises ValueError unless there are two peaks; with
two, the first peak is scaled (the second one, as a non-empty sequence, is true), and unpacking
`scaled` then calls `scale_at` on a boolean, AttributeError, if the second peak had been scaled.
The exception handler assigns `orig[:]`, whose peaks are by then the very objects being modified. -/
def matchAt (sc : Part K → K → K → Res (List K)) (val : Part K → K → K) (ps : List (Part K)) (x y : K) :
    Bool × List (Part K) :=
  let height := valueAt val ps x
  if height = 0 then (false, ps)
  else
    match firstAttempt sc val x (y / height) ps with
    | (.error _, _) => (false, ps)
    | (.ok (scaled, fixedHeight), ps') =>
      if ¬ (scaled.all id = true) ∧ fixedHeight < y ∧ fixedHeight < height then
        let scale := (y - fixedHeight) / (height - fixedHeight)
        match ps, scaled with
        | [p0, p1], [_, s1] =>
          match (if p1.pars.length = 0 then (.ok false, p0) else scaleAt sc p0 x scale) with
          | (.error _, p0') => (false, [p0', p1])
          | (.ok any, p0') => if s1 then (false, [p0', p1]) else (any, [p0', p1])
        | _, _ => (false, ps)
      else (scaled.any id, ps')

end Field

end Verif.PeakList
