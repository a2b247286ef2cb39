import Verif.ModelCluster.Model
import Verif.Parts.Model

/-!
# Model of what a cluster shows: `value`, `valuebl`, `residual`, `quality`, `plottable`, `addexternalpeaks`
(`src/diffpy/srmise/modelcluster.py:517-531, 1267-1386`)

`r=None` is `none`, an array is `some`.  The arrays `r_cluster`, `y_cluster`, `error_cluster` are the slices of
the data arrays (`change_slice`, modelcluster.py:894-899).
-/

namespace Verif.Parts.ModelCluster

open Verif.Py Verif.PeakList

variable {K : Type} [Field K] [LinearOrder K]

/-- `self.slice` as a range of indices; before the first `change_slice` there is no `size` nor `r_cluster`
(AttributeError). -/
def sliceOf (c : Cluster K) : Res Slice :=
  match c.slice with
  | none => .error .attribute
  | some s => .ok s

/-- The range that `slice` denotes. -/
def Slice.rng (s : Slice) : Option (ℕ × ℕ) := some (s.start.getD 0, s.stop)

/-- `a + b` of arrays; unequal lengths are ValueError (broadcasting of a single value is not modelled). -/
def addArr (a b : List K) : Res (List K) :=
  if a.length = b.length then .ok (List.zipWith (· + ·) a b) else .error .value

/-- `a - b` of arrays. -/
def subArr (a b : List K) : Res (List K) :=
  if a.length = b.length then .ok (List.zipWith (· - ·) a b) else .error .value

/-- `valuebl(r)` — modelcluster.py:1289-1313. -/
def baseValue (c : Cluster K) (r : Option (List K)) : Res (List K) :=
  match c.baseline, r with
  | none, none => (sliceOf c).map (fun s => List.replicate (s.get c.r).length 0)
  | none, some r => .ok (r.map (· * 0))
  | some b, none => do
    let s ← sliceOf c
    let v ← b.value c.r s.rng
    return s.get v
  | some b, some r => b.value r none

/-- `self.model.value(...)` as used in `value` — modelcluster.py:1283-1287. -/
def peaksValue (c : Cluster K) (r : Option (List K)) : Res (List K) :=
  match r with
  | none => do
    let s ← sliceOf c
    let v ← Parts.value c.model c.r s.rng
    return s.get v
  | some r => Parts.value c.model r none

/-- `value(r)` — modelcluster.py:1267-1287. -/
def clusterValue (c : Cluster K) (r : Option (List K)) : Res (List K) :=
  if c.model.length = 0 then baseValue c r
  else do
    let b ← baseValue c r
    let m ← peaksValue c r
    addArr b m

/-- `residual()` — modelcluster.py:1315-1317. -/
def clusterResidual (c : Cluster K) : Res (List K) := do
  let s ← sliceOf c
  let v ← clusterValue c none
  subArr (s.get c.y) v

/-- The exception of an evaluator, as an exception of the cluster (AssertionError is 20,
SrMiseModelEvaluatorError 21). -/
def evalErr : Evaluator.Err → Err
  | .assertion => .other 20
  | .modelEvaluator => .other 21

/-- What the evaluator reads from the cluster — aic.py:75-86, base.py:133-146: the parameters of the peaks
(not of the baseline), the value, the data and the uncertainties of the cluster. -/
def fitOf (c : Cluster K) (s : Slice) (v : List K) : Evaluator.Fit K :=
  ⟨npars c.model false, npars c.model true, v, s.get c.y, s.get c.err⟩

/-- `quality(evaluator, count_fixed, kshift)` — modelcluster.py:1319-1346: a new evaluator evaluates the
cluster. -/
def quality (kind : Evaluator.Kind) (c : Cluster K) (countFixed : Bool) (kshift : ℤ) :
    Res (Evaluator.Ev K) := do
  let s ← sliceOf c
  let v ← clusterValue c none
  match Evaluator.evaluate kind (Evaluator.new kind) (fitOf c s v) countFixed kshift with
  | .error e => .error (evalErr e)
  | .ok a => return a

/-- The curves of `plottable(joined=False)` — modelcluster.py:1372-1377, one per peak. -/
def plotCurves (c : Cluster K) (s : Slice) (bl : List K) : List (Part K) → Res (List (List K))
  | [] => .ok []
  | p :: ps => do
    let v ← p.value c.r s.rng
    let w ← addArr bl (s.get v)
    let rest ← plotCurves c s bl ps
    return (s.get c.r) :: w :: rest

/-- `plottable(joined)` — modelcluster.py:1348-1377: alternating abscissae and ordinates. -/
def plottable (c : Cluster K) (joined : Bool) : Res (List (List K)) := do
  let s ← sliceOf c
  if joined then
    let v ← clusterValue c none
    return [s.get c.r, s.get c.y, s.get c.r, v]
  else
    let bl ← baseValue c none
    let curves ← plotCurves c s bl c.model
    return s.get c.r :: s.get c.y :: curves

/-- `plottable_residual()` — modelcluster.py:1379-1386. -/
def plottableResidual (c : Cluster K) : Res (List (List K)) := do
  let s ← sliceOf c
  let v ← clusterResidual c
  return [s.get c.r, v]

/-- `addexternalpeaks(peaks)` — modelcluster.py:517-531: the peaks are inserted at the front and sorted
(`replacepeaks` with its default `slice(0, 0)`), then their value is added to the data. -/
def addexternalpeaks (as : List K → List ℕ) (c : Cluster K) (peaks : List (Part K)) :
    Res Unit × Cluster K :=
  match replacepeaks as c.model peaks 0 0 with
  | (.error e, m) => (.error e, { c with model := m })
  | (.ok (), m) =>
    match Parts.value peaks c.r none with
    | .error e => (.error e, { c with model := m })
    | .ok v =>
      match addArr c.y v with
      | .error e => (.error e, { c with model := m })
      | .ok y => (.ok (), { c with model := m, y := y })

end Verif.Parts.ModelCluster
