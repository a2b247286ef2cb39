import Verif.Function.Model
import Mathlib.Algebra.Field.Basic
import Mathlib.Data.List.Basic

/-!
# Model of `src/diffpy/srmise/modelparts.py`

A numpy array of parameters is a list together with a flag telling whether its dtype is integral
(assigning a float into an integral array truncates it).  The arithmetic that is specific to
floating point is abstracted by `Flt`.
-/

namespace Verif.Parts

open Verif.Py

/-- What is needed to know about the number type: `np.isnan`, and the cast a float suffers when
stored into an array of integral dtype. -/
structure Flt (K : Type) where
  isnan : K → Bool
  trunc : K → K

/-- What a `ModelPart` uses of its owner (a `BaseFunction` subclass instance): identity, number of
parameters, the parameter dictionary, `_valueraw`, `_jacobianraw` and `transform_parameters`. -/
structure Owner (K : Type) where
  id : ℕ
  npars : ℕ
  dict : List (String × ℕ)
  rawValue : List K → List K → List K
  rawJac : List K → List K → List Bool → List (Option (List K))
  transform : List K → Option String → Option String → Res (List K)

/-- `ModelPart` — modelparts.py:461-544; `isInt` is the dtype of `pars`. -/
structure Part (K : Type) where
  owner : Owner K
  pars : List K
  free : List Bool
  removable : Bool
  staticOwner : Bool
  isInt : Bool

variable {K : Type}

/-- `ModelPart.__init__` — modelparts.py:503-544. -/
def Part.new (o : Owner K) (pars : List K) (free : Option (List Bool)) (removable static isInt : Bool) :
    Res (Part K) :=
  if pars.length ≠ o.npars then .error .value
  else
    let fr := match free with | none => pars.map (fun _ => true) | some f => f
    if fr.length ≠ o.npars then .error .value
    else .ok ⟨o, pars, fr, removable, static, isInt⟩

/-- `changeowner` — modelparts.py:546-568. -/
def Part.changeowner (p : Part K) (o : Owner K) : Res Unit × Part K :=
  if p.staticOwner ∧ p.owner.id ≠ o.id then (.error .staticOwner, p)
  else if p.owner.npars ≠ o.npars then (.error .staticOwner, p)
  else (.ok (), { p with owner := o })

/-- `arr[mask]`. -/
def selectMask {α : Type} : List α → List Bool → List α
  | a :: as, true :: ms => a :: selectMask as ms
  | _ :: as, false :: ms => selectMask as ms
  | _, _ => []

/-- `compress` — modelparts.py:570-578. -/
def Part.compress (p : Part K) : List K := selectMask p.pars p.free

/-- `npars(count_fixed)` — modelparts.py:731-749. -/
def Part.npars (p : Part K) (countFixed : Bool) : ℕ :=
  if countFixed then p.owner.npars else p.free.count true

/-- `arr[mask] = vals` with as many values as `True`s. -/
def assignMask {α : Type} : List α → List Bool → List α → List α
  | _ :: as, true :: ms, v :: vs => v :: assignMask as ms vs
  | a :: as, false :: ms, vs => a :: assignMask as ms vs
  | as, _, _ => as

/-- `update(freepars)` — modelparts.py:609-630.  numpy's boolean assignment
`self.pars[self.free] = freepars[:numfree]` accepts exactly `numfree` values, or one value that is
then broadcast to all free parameters; anything else is ValueError. -/
def Part.update (F : Flt K) (p : Part K) (freepars : List K) : Res ℕ × Part K :=
  let numfree := p.npars false
  let vals := (freepars.take numfree).map (fun v => if p.isInt then F.trunc v else v)
  if vals.length = numfree then
    (.ok numfree, { p with pars := assignMask p.pars p.free vals })
  else match vals with
    | [v] => (.ok numfree, { p with pars := assignMask p.pars p.free (List.replicate numfree v) })
    | _ => (.error .value, p)

/-- The loop of `pack_freepars` — modelparts.py:271-273. -/
def packLoop (F : Flt K) : List (Part K) → List K → Res Unit × List (Part K)
  | [], _ => (.ok (), [])
  | p :: ps, v =>
    match p.update F v with
    | (.error e, p') => (.error e, p' :: ps)
    | (.ok k, p') =>
      let (res, ps') := packLoop F ps (v.drop k)
      (res, p' :: ps')

/-- `pack_freepars` — modelparts.py:256-273. -/
def pack (F : Flt K) (ps : List (Part K)) (v : List K) : Res Unit × List (Part K) :=
  if v.any F.isnan then (.error .value, ps) else packLoop F ps v

/-- `unpack_freepars` — modelparts.py:368-372; `np.concatenate` of an empty list is ValueError. -/
def unpack (ps : List (Part K)) : Res (List K) :=
  if ps = [] then .error .value else .ok (ps.flatMap Part.compress)

/-- `ModelParts.npars` — modelparts.py:237-254. -/
def npars (ps : List (Part K)) (countFixed : Bool) : ℕ := (ps.map (fun p => p.npars countFixed)).sum

section Field

variable [Field K]

/-- `ModelPart.value` — modelparts.py:632-648 and basefunction.py:334-368. -/
def Part.value (p : Part K) (r : List K) (rng : Option (ℕ × ℕ)) : Res (List K) :=
  Function.value p.owner.rawValue p.pars r rng

/-- `ModelPart.jacobian` — modelparts.py:580-596 and basefunction.py:213-245. -/
def Part.jacobian (p : Part K) (r : List K) (rng : Option (ℕ × ℕ)) : Res (List (Option (List K))) :=
  Function.jacobian p.owner.rawJac p.pars r p.free rng

/-- The loop of `ModelParts.value` — modelparts.py:363-366. -/
def valueLoop : List (Part K) → List K → Option (ℕ × ℕ) → List K → Res (List K)
  | [], _, _, total => .ok total
  | p :: ps, r, rng, total =>
    match p.value r rng with
    | .error e => .error e
    | .ok v => valueLoop ps r rng (List.zipWith (· + ·) total v)

/-- `ModelParts.value` — modelparts.py:347-366. -/
def value (ps : List (Part K)) (r : List K) (rng : Option (ℕ × ℕ)) : Res (List K) :=
  valueLoop ps r rng (r.map (· * 0))

/-- `residual` — modelparts.py:275-304 (array `r`); the parts are left packed. -/
def residual (F : Flt K) (ps : List (Part K)) (freepars r y err : List K) (rng : Option (ℕ × ℕ)) :
    Res (List K) × List (Part K) :=
  match pack F ps freepars with
  | (.error e, ps') => (.error e, ps')
  | (.ok (), ps') =>
    match value ps' r rng with
    | .error e => (.error e, ps')
    | .ok total =>
      (.ok (List.zipWith (· / ·)
        (List.zipWith (· - ·) (getSlice y rng) (getSlice total rng)) (getSlice err rng)), ps')

/-- The loop collecting the parts' Jacobians — modelparts.py:331-333. -/
def jacLoop : List (Part K) → List K → Option (ℕ × ℕ) → Res (List (Option (List K)))
  | [], _, _ => .ok []
  | p :: ps, r, rng =>
    match p.jacobian r rng with
    | .error e => .error e
    | .ok j => (jacLoop ps r rng).map (j ++ ·)

/-- `residual_jacobian` — modelparts.py:306-345 (array `r`). -/
def residualJacobian (F : Flt K) (ps : List (Part K)) (freepars r err : List K)
    (rng : Option (ℕ × ℕ)) : Res (List (List K)) × List (Part K) :=
  if freepars.length = 0 then (.error .value, ps)
  else match pack F ps freepars with
    | (.error e, ps') => (.error e, ps')
    | (.ok (), ps') =>
      match jacLoop ps' r rng with
      | .error e => (.error e, ps')
      | .ok temp =>
        (.ok ((temp.filterMap id).map (fun row =>
          List.zipWith (· / ·) (getSlice (row.map (fun v => -v)) rng) (getSlice err rng))), ps')

/-! ### Fitting -/

/-- The outcome of a `leastsq` call whose function evaluations did not raise. -/
inductive Outcome (K : Type)
  | raises (e : Err)
  /-- solution, flag, `cov_x` (`None` when singular), `fvec`. -/
  | done (x : List K) (ier : ℤ) (covx : Option (List (List K))) (fvec : List K)

/-- One call of `scipy.optimize.leastsq`, treated as an arbitrary oracle: the free-parameter vectors
at which it evaluates the residual or its Jacobian, in order, and its outcome. -/
structure Lsq (K : Type) where
  trace : List (List K)
  outcome : Outcome K

/-- Evaluations made by `leastsq`: each packs its vector into the parts (modelparts.py:296, 330);
an exception raised by an evaluation ends the call. -/
def runTrace (F : Flt K) : List (Part K) → List (List K) → Res Unit × List (Part K)
  | ps, [] => (.ok (), ps)
  | ps, v :: vs =>
    match pack F ps v with
    | (.error e, ps') => (.error e, ps')
    | (.ok (), ps') => runTrace F ps' vs

/-- A `leastsq` call. -/
def runLsq (F : Flt K) (ps : List (Part K)) (l : Lsq K) :
    Res (List K × ℤ × Option (List (List K)) × List K) × List (Part K) :=
  match runTrace F ps l.trace with
  | (.error e, ps') => (.error e, ps')
  | (.ok (), ps') =>
    match l.outcome with
    | .raises e => (.error e, ps')
    | .done x ier c f => (.ok (x, ier, c, f), ps')

/-- "clean up parameters" — modelparts.py:196-198. -/
def cleanup : List (Part K) → Res Unit × List (Part K)
  | [] => (.ok (), [])
  | p :: ps =>
    match p.owner.transform p.pars (some "internal") (some "internal") with
    | .error e => (.error e, p :: ps)
    | .ok q =>
      let (res, ps') := cleanup ps
      (res, { p with pars := q } :: ps')

/-- After a successful `leastsq`: pack, flag test, clean-up, covariance — modelparts.py:166-213.
`cov` tells whether a covariance object was passed; the result is the matrix handed to
`cov.setcovariance`.  Multiplying `cov_x = None` by a number is TypeError. -/
def finishFit (F : Flt K) (ps : List (Part K)) (nr nfree : ℕ) (cov : Bool) (x : List K) (ier : ℤ)
    (covx : Option (List (List K))) (fvec : List K) : Res (Option (List (List K))) × List (Part K) :=
  match pack F ps x with
  | (.error e, ps') => (.error e, ps')
  | (.ok (), ps') =>
    if ier ∉ [1, 2, 3, 4] then (.error .fit, ps')
    else match cleanup ps' with
      | (.error e, ps'') => (.error e, ps'')
      | (.ok (), ps'') =>
        if cov then
          match covx with
          | none => (.error .type, ps'')
          | some c =>
            let s := (fvec.map (fun v => v ^ 2)).sum
            (.ok (some (c.map (fun row => row.map (fun v => v * s / ((nr : K) - nfree))))), ps'')
        else (.ok none, ps'')

/-- `ModelParts.fit` — modelparts.py:60-216 (plots omitted).  `l1` is the call with an explicit
Jacobian, `l2` the one made when the first raises NotImplementedError; only exceptions of the first
are converted into SrMiseFitError. -/
def fit (F : Flt K) (ps : List (Part K)) (nr : ℕ) (cov : Bool) (l1 l2 : Lsq K) :
    Res (Option (List (List K))) × List (Part K) :=
  match unpack ps with
  | .error e => (.error e, ps)
  | .ok v =>
    if nr ≤ v.length then (.error .fit, ps)
    else if v.length = 0 then (.ok none, ps)
    else match runLsq F ps l1 with
      | (.ok (x, ier, c, f), ps') => finishFit F ps' nr v.length cov x ier c f
      | (.error .notImplemented, ps') =>
        match runLsq F ps' l2 with
        | (.ok (x, ier, c, f), ps'') => finishFit F ps'' nr v.length cov x ier c f
        | (.error e, ps'') => (.error e, ps'')
      | (.error _, ps') => (.error .fit, ps')

end Field

/-- `ModelParts.transform` — modelparts.py:438-455: ValueError is logged and ignored per part. -/
def transform : List (Part K) → Option String → Option String → Res Unit × List (Part K)
  | [], _, _ => (.ok (), [])
  | p :: ps, i, o =>
    match p.owner.transform p.pars i o with
    | .ok q => let (res, ps') := transform ps i o; (res, { p with pars := q } :: ps')
    | .error .value => let (res, ps') := transform ps i o; (res, p :: ps')
    | .error e => (.error e, p :: ps)

/-- `__eq__` between two parts — modelparts.py:754-764 (`static_owner` and dtype are ignored). -/
def Part.beq [DecidableEq K] (p q : Part K) : Bool :=
  decide (p.owner.id = q.owner.id) && decide (p.pars = q.pars) && decide (p.free = q.free) &&
    (p.removable == q.removable)

/-- `copy` — modelparts.py:650-667. -/
def Part.copy (p : Part K) : Res (Part K) :=
  Part.new p.owner p.pars (some p.free) p.removable p.staticOwner p.isInt

/-- Python index of a sequence of length `n`: `-n ≤ i < n`. -/
def pyIndex (n : ℕ) (i : ℤ) : Res ℕ :=
  if 0 ≤ i ∧ i < n then .ok i.toNat
  else if -n ≤ i ∧ i < 0 then .ok (i + n).toNat
  else .error .index

/-- A key or an index. -/
inductive Key
  | name (s : String)
  | idx (i : ℤ)

/-- Position denoted by `key_or_idx`; an unknown name indexes a numpy array by a string, which is
IndexError. -/
def Part.position (p : Part K) : Key → Res ℕ
  | .name s => match p.owner.dict.find? (fun kv => kv.1 == s) with
    | some (_, i) => .ok i
    | none => .error .index
  | .idx i => pyIndex p.pars.length i

/-- `p[key_or_idx]` — modelparts.py:669-687. -/
def Part.get (p : Part K) (k : Key) : Res K :=
  match p.position k with
  | .error e => .error e
  | .ok i => match p.pars[i]? with | some v => .ok v | none => .error .index

/-- `getfree` — modelparts.py:689-706. -/
def Part.getfree (p : Part K) (k : Key) : Res Bool :=
  match p.position k with
  | .error e => .error e
  | .ok i => match p.free[i]? with | some v => .ok v | none => .error .index

/-- `setfree` — modelparts.py:708-727. -/
def Part.setfree (p : Part K) (k : Key) (v : Bool) : Res (Part K) :=
  match p.position k with
  | .error e => .error e
  | .ok i => if i < p.free.length then .ok { p with free := p.free.set i v } else .error .index

end Verif.Parts
