import Verif.Extract.CovModel
import Verif.ModelCluster.ValueModel

/-!
# Model of several `ModelCluster`s that share arrays and baseline objects
(`src/diffpy/srmise/modelcluster.py:440-531, 783-1167, 1226-1265, 1388-1451, 1463-1651`)

The methods are those of `ModelCluster/Model`, `ModelCluster/Greedy` and `ModelCluster/ValueModel`, which work on one
cluster with its own data and baseline.  Here arrays and baseline objects have an identity: `ModelCluster(model, baseline, r, y, err, ...)`
keeps the objects it is given (modelcluster.py:497-500), `copy` copies the model and the baseline, not the arrays (modelcluster.py:475-489),
`join_adjacent` gives the new cluster the arrays and the baseline object of the first one (modelcluster.py:869-878), `addexternalpeaks` writes
into the array (`+=`, modelcluster.py:530), a fit of the baseline writes into the baseline object (modelparts.py:150-220), a reverted fit puts a copy
of the baseline in its place (modelcluster.py:1065-1067, 1096, 1121, 1139).  The attributes `r_cluster`, `y_cluster`, `error_cluster` are views:
an array and a slice.

Simplifications: the peaks of the models are values (that two models can hold one and the same peak object is not modelled); the data
arrays are arrays of floats.
-/

namespace Verif.Parts.Shared

open Verif.Py Verif.PeakList Verif.Parts.ModelCluster Verif.Parts.Extract

variable {K : Type} [Field K] [LinearOrder K]

/-- What a view shows: array and slice. -/
abbrev View := ℕ × Slice

/-- The attributes of a `ModelCluster` — modelcluster.py:466-508.  `baseline`, `r`, `y`, `e` are identities of objects. -/
structure Obj (K : Type) where
  model : List (Part K)
  baseline : Option ℕ
  r : ℕ
  y : ℕ
  e : ℕ
  method : ℕ
  funcs : List ℕ
  slice : Option Slice
  rView : Option View
  yView : Option View
  eView : Option View
  lastFit : ℕ
  neverFit : Bool

/-- All objects: the arrays, the baselines, the clusters. -/
structure Store (K : Type) where
  arr : ℕ → List K
  base : List (Part K)
  obj : List (Obj K)

/-- What the methods of the cluster work with: its attributes, with the present contents of what they refer to. -/
def load (S : Store K) (o : Obj K) : Cluster K :=
  ⟨o.model, o.baseline.bind (fun b => S.base[b]?), S.arr o.r, S.arr o.y, S.arr o.e, o.r, o.y, o.e, o.method, o.funcs, o.slice, o.lastFit,
    o.neverFit⟩

/-- An array gets a new content. -/
def write (arr : ℕ → List K) (k : ℕ) (l : List K) : ℕ → List K := fun i => if i = k then l else arr i

/-- The contents of the arrays after a method has run; the ordinates are what is written last. -/
def contents (arr : ℕ → List K) (c : Cluster K) : ℕ → List K :=
  write (write (write arr c.rId c.r) c.eId c.err) c.yId c.y

/-- The attributes after a method has run; the views are rebound by `change_slice` only. -/
def attrs (o : Obj K) (c : Cluster K) : Obj K :=
  { o with model := c.model, method := c.method, funcs := c.funcs, slice := c.slice, lastFit := c.lastFit, neverFit := c.neverFit }

/-- `self.r_cluster = self.r_data[new_slice]`, … — modelcluster.py:896-898. -/
def views (o : Obj K) : Obj K :=
  { o with rView := o.slice.map (fun s => (o.r, s)), yView := o.slice.map (fun s => (o.y, s)), eView := o.slice.map (fun s => (o.e, s)) }

/-- What has become of the baseline object of a cluster: the content of the object, and whether the cluster now has a copy instead (with
the content the object had before). -/
structure Fate (K : Type) where
  content : Option (Part K)
  copied : Bool

/-- `fit(...)` — modelcluster.py:1044-1143: the optimiser writes into the object if the baseline takes part in the fit; when the fit is
reverted the cluster gets the copy that was made before. -/
def fateFit (E : Env K) (o : Opts) (c : Cluster K) : Fate K :=
  match started E o c with
  | none => ⟨c.baseline, false⟩
  | some c1 =>
    match ModelCluster.fit E o c with
    | (.ok none, _, _) => ⟨(launch E o c1).2.2, true⟩
    | _ => ⟨(launch E o c1).2.2, false⟩

/-- `contingent_fit(...)` — modelcluster.py:1145-1167. -/
def fateContingent (E : Env K) (c : Cluster K) (minpoints : ℕ) (growth : K) : Fate K :=
  if c.neverFit then ⟨c.baseline, false⟩
  else if (0 < c.lastFit ∧ growth ≤ (c.size : K) / c.lastFit) ∨ (c.lastFit = 0 ∧ minpoints ≤ c.size) then fateFit E { justify := true } c
  else ⟨c.baseline, false⟩

/-- The baseline objects after something was written into object `b`. -/
def written (base : List (Part K)) (b : Option ℕ) (p : Option (Part K)) : List (Part K) :=
  match b, p with
  | some b, some p => base.set b p
  | _, _ => base

/-- The cluster `i` after a method: arrays, attributes, baseline object. -/
def put (S : Store K) (i : ℕ) (o : Obj K) (c : Cluster K) (f : Fate K) : Store K :=
  let base := written S.base o.baseline f.content
  match f.copied, o.baseline, c.baseline with
  | true, some _, some p => ⟨contents S.arr c, base ++ [p], S.obj.set i { attrs o c with baseline := some base.length }⟩
  | _, _, _ => ⟨contents S.arr c, base, S.obj.set i (attrs o c)⟩

/-- The baseline object is left as it is. -/
def still (c : Cluster K) : Fate K := ⟨c.baseline, false⟩

/-- A new cluster. -/
def addObj (S : Store K) (o : Obj K) : Store K := { S with obj := S.obj ++ [o] }

/-- The calls.  `reverted` in `reduce` and `augment` tells whether one of the fits in it was reverted, so that the cluster has a copy of its
baseline afterwards; the theorems hold for both values. -/
inductive Op (K : Type) where
  /-- The caller makes a baseline object. -/
  | baseline (p : Part K)
  /-- `ModelCluster(model, baseline, r, y, err, slice, method, funcs)` -/
  | make (model : List (Part K)) (bl : Option ℕ) (r y e : ℕ) (s : Option Slice) (method : ℕ) (funcs : List ℕ)
  | copy (i : ℕ)
  | join (i j : ℕ)
  | slice (i : ℕ) (s : Slice)
  | add (i : ℕ) (peaks : List (Part K))
  | replace (i : ℕ) (new : List (Part K)) (a b : ℕ)
  | delete (i : ℕ) (idx : ℤ)
  | clean (i : ℕ)
  | fit (i : ℕ) (o : Opts)
  | contingent (i : ℕ) (minpoints : ℕ) (growth : K)
  | reduce (i : ℕ) (x y : K) (reverted : Bool)
  | augment (i : ℕ) (source : List (Part K)) (reverted : Bool)
  | prune (i : ℕ)

/-- The cluster that the call may change. -/
def Op.target : Op K → Option ℕ
  | .slice i _ | .add i _ | .replace i _ _ _ | .delete i _ | .clean i | .fit i _ | .contingent i _ _ | .reduce i _ _ _ | .augment i _ _
  | .prune i => some i
  | .baseline _ | .make .. | .copy _ | .join .. => none

/-- `change_slice(new)` as it is — modelcluster.py:880-922. -/
def sliced (W : World K) (c : Cluster K) (s : Slice) : Res Unit × Cluster K := changeSlice (excess W c) c s

/-- A method call on cluster `o`: result, the cluster afterwards, the fate of its baseline object.
`prune` works on an auxiliary cluster with data of its own (modelcluster.py:1478-1488) and changes the model only (`Extract.pruned`). -/
def call (W : World K) (c : Cluster K) : Op K → Res Unit × Cluster K × Fate K
  | .slice _ s => let r := sliced W c s; (r.1, r.2, still c)
  | .add _ peaks => let r := addexternalpeaks W.as c peaks; (r.1, r.2, still c)
  | .replace _ new a b => let r := replacepeaks W.as c.model new a b; (r.1, { c with model := r.2 }, still c)
  | .delete _ idx => let r := deletepeak W.as c.model idx; (r.1, { c with model := r.2 }, still c)
  | .clean _ => (.ok (), { c with model := (W.env c).clean c.model }, still c)
  | .fit _ o => let r := ModelCluster.fit (W.env c) o c; (r.1.map (fun _ => ()), r.2.1, fateFit (W.env c) o c)
  | .contingent _ m g =>
    let r := contingentFit (W.env c) c m g; (r.1.map (fun _ => ()), r.2.1, fateContingent (W.env c) c m g)
  | .reduce _ x y b =>
    let r := reduceTo (W.env c) W.sc W.val (valuebl W c.baseline x) c x y; (r.1.map (fun _ => ()), r.2, ⟨c.baseline, b⟩)
  | .augment _ source b => let r := ModelCluster.augment (W.env c) W.pick c source; (r.1, r.2, ⟨c.baseline, b⟩)
  | .prune _ =>
    match c.slice with
    | none => (.error .attribute, c, still c)
    | some s =>
      let aux : Cluster K := ⟨[], none, s.get c.r, List.zipWith (fun a b => b - valuebl W c.baseline a) (s.get c.r) (s.get c.y),
        s.get c.err, c.rId, c.yId, c.eId, c.method, c.funcs, none, 0, false⟩
      match changeSlice (excess W aux) aux ⟨none, aux.r.length⟩ with
      | (.error e, _) => (.error e, c, still c)
      | (.ok (), aux) => let r := ModelCluster.prune (W.pruneEnv c) W.pick aux c.model; (r.1, { c with model := r.2 }, still c)
  | _ => (.ok (), c, still c)

/-- The views after the call: `change_slice` rebinds all of them, `addexternalpeaks` that of the ordinates, if it comes to its last line
— modelcluster.py:531, 896-898. -/
def rebind (op : Op K) (ok : Bool) (o : Obj K) : Obj K :=
  match op with
  | .slice _ _ => views o
  | .add _ _ => if ok then { o with yView := o.slice.map (fun s => (o.y, s)) } else o
  | _ => o

/-- `True` if the call did not raise. -/
def succeeded (r : Res Unit) : Bool := match r with | .ok () => true | .error _ => false

/-- A new cluster before its slice is set — modelcluster.py:466-508. -/
def fresh (model : List (Part K)) (bl : Option ℕ) (r y e method : ℕ) (funcs : List ℕ) : Obj K :=
  ⟨model, bl, r, y, e, method, funcs, none, none, none, none, 0, false⟩

/-- `change_slice` at the end of the constructor: the object exists if it does not raise. -/
def construct (W : World K) (S : Store K) (o : Obj K) (s : Slice) : Res Unit × Store K :=
  match sliced W (load S o) s with
  | (.error e, _) => (.error e, S)
  | (.ok (), c) => (.ok (), addObj S (views (attrs o c)))

/-- One call.  A call with a cluster or a baseline object that does not exist does nothing. -/
def step (W : World K) (S : Store K) (op : Op K) : Res Unit × Store K :=
  match op with
  | .baseline p => (.ok (), { S with base := S.base ++ [p] })
  | .make model bl r y e s method funcs =>
    if bl.all (fun b => decide (b < S.base.length)) then
      construct W S (fresh model bl r y e method funcs) (s.getD ⟨none, (S.arr r).length⟩)
    else (.ok (), S)
  | .copy i =>
    match S.obj[i]? with
    | none => (.ok (), S)
    | some o =>
      match o.slice with
      | none => (.error .attribute, S)
      | some s =>
        match (load S o).baseline with
        | none => construct W S (fresh o.model none o.r o.y o.e o.method o.funcs) s
        | some p =>
          construct W { S with base := S.base ++ [p] } (fresh o.model (some S.base.length) o.r o.y o.e o.method o.funcs) s
  | .join i j =>
    match S.obj[i]?, S.obj[j]? with
    | some o1, some o2 =>
      match joinAdjacent W.as W.eqv W.sc W.val (excess W (load S o1)) (load S o1) (load S o2) with
      | .error e => (.error e, S)
      | .ok c => (.ok (), addObj S (views (attrs o1 c)))
    | _, _ => (.ok (), S)
  | op =>
    match op.target with
    | none => (.ok (), S)
    | some i =>
      match S.obj[i]? with
      | none => (.ok (), S)
      | some o =>
        let r := call W (load S o) op
        (r.1, let T := put S i o r.2.1 r.2.2
              { T with obj := T.obj.modify i (rebind op (succeeded r.1)) })

/-- Any series of calls; the caller goes on after an exception. -/
def run (W : World K) (S : Store K) (ops : List (Op K)) : Store K := ops.foldl (fun S op => (step W S op).2) S

end Verif.Parts.Shared
