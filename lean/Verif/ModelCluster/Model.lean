import Verif.PeakList.Model
import Verif.Evaluator.Model

/-!
# Model of `ModelCluster` (`src/diffpy/srmise/modelcluster.py:409-1343`)

Peaks and the baseline are `Part`s.  The numerics are arguments: the least-squares fit of the parts, the
quality of a model on the cluster, the estimate of a first peak, `argsort`.  They are arbitrary functions
in the theorems.  The identity of shared arrays is a number.
-/

namespace Verif.Parts.ModelCluster

open Verif.Py Verif.PeakList

variable {K : Type}

/-- `slice(start, stop)`; `start` is `None` in `slice(len(r_data))`. -/
structure Slice where
  start : Option ℕ
  stop : ℕ
  deriving DecidableEq

/-- `s.indices(n)` without the step. -/
def Slice.indices (s : Slice) (n : ℕ) : ℕ × ℕ := (min (s.start.getD 0) n, min s.stop n)

/-- `a[s]`. -/
def Slice.get {α : Type} (s : Slice) (l : List α) : List α :=
  getSlice l (some (s.start.getD 0, s.stop))

/-- The attributes of a `ModelCluster` — modelcluster.py:466-508.  `rId`, `yId`, `eId`, `method` are the
identities of the shared arrays and of the evaluator class, `funcs` those of the peak functions. -/
structure Cluster (K : Type) where
  model : List (Part K)
  baseline : Option (Part K)
  r : List K
  y : List K
  err : List K
  rId : ℕ
  yId : ℕ
  eId : ℕ
  method : ℕ
  funcs : List ℕ
  slice : Option Slice
  lastFit : ℕ
  neverFit : Bool

/-- `self.size` — modelcluster.py:899. -/
def Cluster.size (c : Cluster K) : ℕ :=
  match c.slice with
  | none => 0
  | some s => (s.get c.r).length

/-! ### change_slice -/

/-- `max(l) < 0`; `max` of an empty sequence is ValueError. -/
def maxNeg [Zero K] [LinearOrder K] (l : List K) : Res Bool :=
  if l = [] then .error .value else .ok (l.all (fun v => decide (v < 0)))

/-- The new `never_fit` — modelcluster.py:911-921.  `ex` is `y_data - valuebl(r_data) - y_error`.
Comparing a `None` start is TypeError. -/
def updateNever [Zero K] [LinearOrder K] (ex : List K) (never : Bool) (old : Option Slice) (new : Slice) :
    Res Bool :=
  match old with
  | none => maxNeg (new.get ex)
  | some old =>
    let afterLeft : Res Bool :=
      if never then
        match new.start, old.start with
        | some a, some b => if a < b then maxNeg (getSlice ex (some (a, b))) else .ok never
        | _, _ => .error .type
      else .ok never
    match afterLeft with
    | .error e => .error e
    | .ok never =>
      if never ∧ old.stop < new.stop then maxNeg (getSlice ex (some (old.stop, new.stop)))
      else .ok never

/-- `change_slice(new_slice)` — modelcluster.py:880-922.  The slice is stored before `never_fit` is
computed. -/
def changeSlice [Zero K] [LinearOrder K] (ex : List K) (c : Cluster K) (new : Slice) :
    Res Unit × Cluster K :=
  match updateNever ex c.neverFit c.slice new with
  | .error e => (.error e, { c with slice := some new })
  | .ok b => (.ok (), { c with slice := some new, neverFit := b })

/-- `copy()` — modelcluster.py:475-491, 510-515: `last_fit_size` starts again at 0 and `never_fit` is
computed anew. -/
def copy [Zero K] [LinearOrder K] (ex : List K) (c : Cluster K) : Res Unit × Cluster K :=
  match c.slice with
  | none => (.error .attribute, c)
  | some s => changeSlice ex { c with slice := none, lastFit := 0, neverFit := false } s

/-! ### Adding and deleting peaks -/

/-- `replacepeaks(newpeaks, slice(a, b))` — modelcluster.py:944-963; `as` is numpy's argsort. -/
def replacepeaks [Zero K] (as : List K → List ℕ) (m : List (Part K)) (new : List (Part K)) (a b : ℕ) :
    Res Unit × List (Part K) :=
  if (getSlice m (some (a, b))).any (fun p => !p.removable) then (.error .value, m)
  else
    let bd := bounds m.length (some (a, b))
    (.ok (), sort as false pos (m.take bd.1 ++ new ++ m.drop bd.2))

/-- `deletepeak(idx)` — modelcluster.py:965-977: `slice(idx, idx + 1)`, with Python's meaning of negative
bounds. -/
def deletepeak [Zero K] (as : List K → List ℕ) (m : List (Part K)) (idx : ℤ) : Res Unit × List (Part K) :=
  let conv : ℤ → ℕ := fun i => if i < 0 then (i + m.length).toNat else i.toNat
  replacepeaks as m [] (conv idx) (conv (idx + 1))

/-! ### cleanfit -/

/-- `pos.searchsorted(v)` for the (sorted) positions: how many precede `v`. -/
def searchPos [Zero K] [LinearOrder K] (ps : List (Part K)) (v : K) : ℕ :=
  (ps.takeWhile (fun p => decide (pos p < v))).length

/-- Whether index `i` is in `to_remove` — modelcluster.py:1174-1215: the union of `outside_idx` and
`nan_idx`. -/
def inRemove [Zero K] [LinearOrder K] (isnan : K → Bool) (r0 r1 : K) (below : Part K → Bool)
    (ps : List (Part K)) (i : ℕ) : Bool :=
  let left := searchPos ps r0
  let right := searchPos ps r1
  let outside := (List.range left ++ List.range' right (ps.length - right)).filter
    (fun i => (ps[i]?.map (fun p => p.removable && below p)).getD false)
  let nan := (List.range ps.length).filter
    (fun i => (ps[i]?.map (fun p => p.pars.any isnan)).getD false)
  outside.contains i || nan.contains i

/-- `cleanfit()` — modelcluster.py:1169-1224.  `r0`, `r1` are the first and last points of the cluster,
`below p` is `max(p.value(r_cluster) - error_cluster) < 0`.  The union of the sets is sorted, then the
peaks are deleted from the last one on. -/
def cleanfit [Zero K] [LinearOrder K] (isnan : K → Bool) (r0 r1 : K) (below : Part K → Bool)
    (ps : List (Part K)) : ℕ × List (Part K) :=
  let toRemove := (List.range ps.length).filter (inRemove isnan r0 r1 below ps)
  (toRemove.length, toRemove.reverse.foldl (fun m i => m.eraseIdx i) ps)

/-! ### fit -/

/-- What `fit` calls: the quality of a model with a baseline on the cluster, `growth_justified`,
`ModelParts.fit`, the estimate of a first peak, the clean-up, `argsort`. -/
structure Env (K : Type) where
  quality : List (Part K) → Option (Part K) → Evaluator.Ev K
  growth : List (Part K) → Option (Part K) → Bool
  lsq : List (Part K) → Res Unit × List (Part K)
  estimate : Res (Option (Part K))
  clean : List (Part K) → List (Part K)
  as : List K → List ℕ

/-- Options of `fit` — modelcluster.py:1010-1018. -/
structure Opts where
  justify : Bool := false
  fitbaseline : Bool := false
  estimate : Bool := true

/-- `estimatepeak()` on an empty model — modelcluster.py:979-1008. -/
def estimatepeak [Zero K] (E : Env K) (m : List (Part K)) : Res Bool × List (Part K) :=
  match E.estimate with
  | .error e => (.error e, m)
  | .ok none => (.ok false, m)
  | .ok (some p) =>
    match replacepeaks E.as m [p] 0 0 with
    | (.error e, m') => (.error e, m')
    | (.ok (), m') => (.ok true, m')

/-- The baseline that takes part in the fit, if any — modelcluster.py:1069, 1100. -/
def fitBaseline (o : Opts) (c : Cluster K) : Option (Part K) :=
  match c.baseline with
  | some b => if o.fitbaseline ∧ 0 < b.npars false then some b else none
  | none => none

/-- The call of `ModelParts.fit` — modelcluster.py:1069-1087 — and the model and baseline that the fitted
parts then are — modelcluster.py:1100-1104. -/
def launch (E : Env K) (o : Opts) (c : Cluster K) : Res Unit × List (Part K) × Option (Part K) :=
  match fitBaseline o c with
  | some b => let f := E.lsq (c.model ++ [b]); (f.1, f.2.dropLast, f.2.getLast?)
  | none => let f := E.lsq c.model; (f.1, f.2, c.baseline)

/-- The part of `fit` after the model has been found or estimated — modelcluster.py:1061-1143.  The third
component is the final content of the *list object* that was `self.model` on entry: after a revert it is
no longer the cluster's model, but other variables may still refer to it.  (`peak_funcs` is not empty.) -/
def fitCore [Field K] [LinearOrder K] (E : Env K) (o : Opts) (c : Cluster K) :
    Res (Option (Evaluator.Ev K)) × Cluster K × List (Part K) :=
  let c1 := { c with lastFit := c.size }
  match launch E o c with
  | (.error .fit, m, _) => (.ok none, c1, m)
  | (.error e, m, bl) => (.error e, { c1 with model := m, baseline := bl }, m)
  | (.ok (), m0, bl) =>
    let m := E.clean (sort E.as false pos m0)
    let listObj := match fitBaseline o c with | some _ => m0 | none => m
    match Evaluator.lt (E.quality m bl) (E.quality c.model c.baseline) with
    | .error _ => (.error (.other 2), { c1 with model := m, baseline := bl }, listObj)
    | .ok true => (.ok none, c1, listObj)
    | .ok false =>
      if o.justify ∧ m.length = 1 ∧ 0 < c.model.length ∧ E.growth m bl then (.ok none, c1, listObj)
      else (.ok (some (E.quality m bl)), { c1 with model := m, baseline := bl }, listObj)

/-- `fit(...)` — modelcluster.py:1010-1143. -/
def fit [Field K] [LinearOrder K] (E : Env K) (o : Opts) (c : Cluster K) :
    Res (Option (Evaluator.Ev K)) × Cluster K × List (Part K) :=
  if c.neverFit then (.ok none, c, c.model)
  else if c.model = [] then
    if o.estimate then
      match estimatepeak E c.model with
      | (.error .estimation, m) => (.ok none, { c with model := m }, m)
      | (.error e, m) => (.error e, { c with model := m }, m)
      | (.ok _, m) => fitCore E o { c with model := m }
    else (.ok none, c, c.model)
  else fitCore E o c

/-- `contingent_fit(minpoints, growth_threshold)` — modelcluster.py:1145-1167. -/
def contingentFit [Field K] [LinearOrder K] (E : Env K) (c : Cluster K) (minpoints : ℕ) (growth : K) :
    Res (Option (Evaluator.Ev K)) × Cluster K × List (Part K) :=
  if c.neverFit then (.ok none, c, c.model)
  else if (0 < c.lastFit ∧ growth ≤ (c.size : K) / c.lastFit) ∨ (c.lastFit = 0 ∧ minpoints ≤ c.size) then
    fit E { justify := true } c
  else (.ok none, c, c.model)

/-- `reduce_to(x, y)` — modelcluster.py:1226-1265.  `val` and `sc` are value and `scale_at` of a peak,
`blx` is `valuebl(x)`. -/
def reduceTo [Field K] [LinearOrder K] (E : Env K) (sc : Part K → K → K → Res (List K))
    (val : Part K → K → K) (blx : K) (c : Cluster K) (x y : K) :
    Res (Option (Evaluator.Ev K)) × Cluster K :=
  if valueAt val c.model x < y then (.ok none, c)
  else
    let m := (matchAt sc val c.model x (y - blx)).2
    match fit E {} { c with model := m } with
    | (.error e, c', _) => (.error e, c')
    | (.ok none, c', _) => (.ok none, { c' with model := c.model })
    | (.ok (some q), c', _) =>
      if E.growth c'.model c'.baseline then (.ok none, { c' with model := c.model })
      else (.ok (some q), c')

/-! ### join_adjacent -/

/-- The loop removing peaks that sit exactly at the border — modelcluster.py:845-852; `i` runs down.  The
second condition of the loop asks a position to be both above and below the border and so never holds. -/
def dedupLoop [Zero K] [DecidableEq K] (border : K) : ℕ → List (Part K) → List (Part K)
  | 0, m => m
  | i + 1, m =>
    let at_ : ℕ → Bool := fun k => (m[k]?.map (fun p => decide (pos p = border))).getD false
    dedupLoop border i (if at_ i && decide (0 < i) && at_ (i - 1) then m.eraseIdx i else m)

/-- The model of the joined cluster — modelcluster.py:838-861.  `match_` is
`match_at(border_x, border_y)`. -/
def joinModels [Zero K] [LinearOrder K] (as : List K → List ℕ) (border : K)
    (match_ : List (Part K) → List (Part K)) (left right : List (Part K)) : List (Part K) :=
  let m := left ++ right
  let m := (argsort as pos m).filterMap (fun i => m[i]?)
  match_ (dedupLoop border m.length m)

/-- The model of the joined cluster for the border `(bx, by_)` — modelcluster.py:838-866. -/
def joinedModel [Field K] [LinearOrder K] (as : List K → List ℕ) (sc : Part K → K → K → Res (List K))
    (val : Part K → K → K) (bx by_ : K) (m1 m2 left right : List (Part K)) : List (Part K) :=
  if 0 < m1.length ∧ 0 < m2.length then
    joinModels as bx (fun m => (matchAt sc val m bx by_).2) left right
  else if 0 < m1.length then m1 else m2

/-- The second half of `join_adjacent` — modelcluster.py:829-878; `left` and `right` are the two clusters
in order, `li` and `ri` their index ranges. -/
def joinTail [Field K] [LinearOrder K] (as : List K → List ℕ) (sc : Part K → K → K → Res (List K))
    (val : Part K → K → K) (ex : List K) (m1 m2 left right : Cluster K) (li ri : ℕ × ℕ) : Res (Cluster K) :=
  match left.r[li.2 - 1]?, right.r[ri.1]?, left.y[li.2 - 1]?, right.y[ri.1]? with
  | some xl, some xr, some yl, some yr =>
    let model := joinedModel as sc val ((xl + xr) / 2) ((yl + yr) / 2) m1.model m2.model left.model right.model
    let res := changeSlice ex
      { m1 with model := model, slice := none, lastFit := 0, neverFit := false,
                funcs := (m1.funcs ++ m2.funcs).dedup } ⟨some li.1, ri.2⟩
    match res with
    | (.error e, _) => .error e
    | (.ok (), c) => .ok c
  | _, _, _, _ => .error .index

/-- `join_adjacent(m1, m2)` — modelcluster.py:782-878.  `eqv` is the comparison of the baselines. -/
def joinAdjacent [Field K] [LinearOrder K] (as : List K → List ℕ) (eqv : Option (Part K) → Option (Part K) → Bool)
    (sc : Part K → K → K → Res (List K)) (val : Part K → K → K) (ex : List K)
    (m1 m2 : Cluster K) : Res (Cluster K) :=
  if m1.rId ≠ m2.rId then .error .value
  else if m1.yId ≠ m2.yId then .error .value
  else if m1.eId ≠ m2.eId then .error .value
  else if m1.method ≠ m2.method then .error .value
  else if ¬ eqv m1.baseline m2.baseline then .error .value
  else match m1.slice, m2.slice with
    | some s1, some s2 =>
      let i1 := s1.indices m1.r.length
      let i2 := s2.indices m1.r.length
      let (left, right, li, ri) := if i1.1 < i2.1 then (m1, m2, i1, i2) else (m2, m1, i2, i1)
      if ri.1 ≠ li.2 then .error .value
      else joinTail as sc val ex m1 m2 left right li ri
    | _, _ => .error .attribute

end Verif.Parts.ModelCluster
