import Verif.Py.Basic
import Verif.Evaluator.Model
import Mathlib.Data.List.Sort

/-!
# Model of `src/diffpy/srmise/multimodelselection.py`

A fitted model is seen through what the class reads of it.  Dictionaries keyed by the uncertainty `dg` are
functions of `dg`.  `numpy.argsort`, `numpy.argmax` and `numpy.argmin` are arguments with a specification where
their treatment of ties matters.
-/

namespace Verif.Multimodel

open Verif.Py

variable {K : Type}

/-! ### Classification -/

/-- What `classify` reads of a peak or baseline: `type(p)`, the function that owns it, `npars()` and `value(r)`. -/
structure MPart (K : Type) where
  cls : ℕ
  func : ℕ
  npars : ℕ
  val : List K

/-- `self.results[i][1]` and `self.results[i][2]`. -/
structure Model (K : Type) where
  peaks : List (MPart K)
  baseline : MPart K

section

variable [Field K] [LinearOrder K]

/-- `p.value(r) ** 2` — multimodelselection.py:363-364. -/
def sq (p : MPart K) : List K := p.val.map (fun v => v ^ 2)

/-- The comparison of squared values, negated — multimodelselection.py:395-397, 404-407. -/
def close (tol : K) (p ep : List K) : Bool :=
  let basediff := abs (List.zipWith (· - ·) p ep).sum
  !(decide (tol * ep.sum < basediff) || decide (tol * p.sum < basediff))

/-- All the checks of a model against an exemplar — multimodelselection.py:368-408.  Simplification: the squared
values of the exemplar, kept in `epsqval` and `ebsqval`, are computed again. -/
def same (tol : K) (m e : Model K) : Bool :=
  if m.baseline.cls ≠ e.baseline.cls then false
  else if m.baseline.npars ≠ e.baseline.npars then false
  else if m.peaks.length ≠ e.peaks.length then false
  else if (m.peaks.zip e.peaks).any (fun pe => decide (pe.1.cls ≠ pe.2.cls) || decide (pe.1.npars ≠ pe.2.npars)) then false
  else if (m.peaks.zip e.peaks).any (fun pe => !close tol (sq pe.1) (sq pe.2)) then false
  else close tol (sq m.baseline) (sq e.baseline)

end

/-- The loop over the classes found so far — multimodelselection.py:367-413: the first class whose exemplar
`classes[c][0]` passes the checks (`test e`).  Classes are never empty. -/
def findClass (test : ℕ → Bool) : List (List ℕ) → ℕ → Option ℕ
  | [], _ => none
  | cls :: rest, c => if test (cls.headD 0) then some c else findClass test rest (c + 1)

/-- One turn of the main loop — multimodelselection.py:360-421: the classes, and `classes_idx`. -/
def classifyStep (test : ℕ → ℕ → Bool) (st : List (List ℕ) × List (ℕ × ℕ)) (i : ℕ) :
    List (List ℕ) × List (ℕ × ℕ) :=
  match findClass (test i) st.1 0 with
  | some c => (st.1.modify c (fun cls => cls ++ [i]), (i, c) :: st.2)
  | none => (st.1 ++ [[i]], (i, st.1.length) :: st.2)

/-- `classify` — multimodelselection.py:330-425, for `n` results. -/
def classifyLoop (test : ℕ → ℕ → Bool) (n : ℕ) : List (List ℕ) × List (ℕ × ℕ) :=
  (List.range n).foldl (classifyStep test) ([], [])

/-- `classify(r, tolerance)`: the classes and the class of each model. -/
def classify [Field K] [LinearOrder K] (tol : K) (results : List (Model K)) : List (List ℕ) × List (ℕ × ℕ) :=
  classifyLoop (fun i e => match results[i]?, results[e]? with
    | some m, some m' => same tol m m'
    | _, _ => false) results.length

/-- `self.classes_idx[i]`. -/
def classOf (idx : List (ℕ × ℕ)) (i : ℕ) : Option ℕ := (idx.find? (fun p => p.1 == i)).map Prod.snd

/-! ### Rescaled AICs -/

/-- What `makeaics` reads of a fitted model on the resampled data: numbers of free and of all parameters, its
values; the data are shared. -/
structure Fitted (K : Type) where
  nfree : ℕ
  nall : ℕ
  value : List K

section

variable [Field K] [LinearOrder K]

/-- The model cluster on the data `y` with the uniform uncertainty `dg` — multimodelselection.py:103-112. -/
def toFit (y : List K) (dg : K) (m : Fitted K) : Evaluator.Fit K :=
  ⟨m.nfree, m.nall, m.value, y, y.map (fun _ => dg * 1)⟩

/-- The evaluation for one model and one uncertainty — multimodelselection.py:113-120: `chisq` was computed with
`dg0`, is rescaled, and not computed again. -/
def rescaled (kind : Evaluator.Kind) (y : List K) (dg0 dg : K) (m : Fitted K) :
    Except Evaluator.Err (Evaluator.Ev K) :=
  match Evaluator.evaluate kind (Evaluator.new kind) (toFit y dg0 m) false 0 with
  | .error e => .error e
  | .ok em0 =>
    Evaluator.evaluate kind { (Evaluator.new kind : Evaluator.Ev K) with chisq := em0.chisq.map (fun c => c * (dg0 / dg) ^ 2) }
      (toFit y dg0 m) false 0

/-- `self.aics` after the loops of `makeaics` — multimodelselection.py:83-122, as a function of the uncertainty:
the loop over the models, inside it the loop over the uncertainties, each appending to the list of that
uncertainty. -/
def makeaics (dgs : List K) (entry : Fitted K → K → K) (results : List (Fitted K)) : K → List K :=
  results.foldl (fun aics m =>
    dgs.foldl (fun aics dg => fun k => if k = dg then aics k ++ [entry m dg] else aics k) aics) (fun _ => [])

end

/-! ### Rankings and queries

At one uncertainty `dg`; `stats` are the AICs of the models (lower is better), `as` is `np.argsort`. -/

/-- `sorted(range(len(temp)), key=temp.__getitem__)` mapped to the models of the class —
multimodelselection.py:434-446: stable, and `a < b` for evaluators means that the AIC of `a` is larger
(modelevaluators/base.py:73-82). -/
noncomputable def sortClass (stats : List ℝ) (cls : List ℕ) : List ℕ :=
  cls.mergeSort (fun i j => decide (stats.getD j 0 ≤ stats.getD i 0))

/-- `self.sortedclasses[dg]`. -/
noncomputable def sortedClasses (stats : List ℝ) (classes : List (List ℕ)) : List (List ℕ) := classes.map (sortClass stats)

/-- The AICs of the best models of the classes, `self.aics[dg][cls[-1]]` — multimodelselection.py:454-455,
463-464. -/
noncomputable def bestStats (stats : List ℝ) (classes : List (List ℕ)) : List ℝ :=
  (sortedClasses stats classes).map (fun cls => stats.getD (cls.getLastD 0) 0)

/-- `self.aicprobs[dg]`, `self.classprobs[dg]`; `min` of nothing raises ValueError. -/
noncomputable def probs (l : List ℝ) : Res (List ℝ) :=
  match Evaluator.akaikeProbs l with
  | none => .error .value
  | some p => .ok p

/-- `l[-1 - k]` for `k ≥ 0`. -/
def fromEnd {α : Type} (l : List α) (k : ℕ) : Res α :=
  match l.reverse[k]? with
  | none => .error .index
  | some a => .ok a

/-- `get_class(dG, corder=k)` — multimodelselection.py:796-814. -/
noncomputable def getClass (as : List ℝ → List ℕ) (stats : List ℝ) (classes : List (List ℕ)) (corder : ℕ) : Res ℕ :=
  match probs (bestStats stats classes) with
  | .error e => .error e
  | .ok p => fromEnd (as p) corder

/-- The keyword `cls`: not given, None, an index. -/
inductive Cls
  | notGiven
  | ignore
  | index (c : ℕ)

/-- `get_model(dG, corder=, morder=, cls=)` — multimodelselection.py:764-794. -/
noncomputable def getModel (as : List ℝ → List ℕ) (stats : List ℝ) (classes : List (List ℕ)) (corder morder : ℕ) (cls : Cls) :
    Res ℕ :=
  let inClass : ℕ → Res ℕ := fun c =>
    match (sortedClasses stats classes)[c]? with
    | none => .error .index
    | some l => fromEnd l morder
  match cls with
  | .ignore =>
    match probs stats with
    | .error e => .error e
    | .ok p => fromEnd (as p) morder
  | .index c => inClass c
  | .notGiven =>
    match getClass as stats classes corder with
    | .error e => .error e
    | .ok c => inClass c

/-- `get_prob(dG, ...)` — multimodelselection.py:816-842; `idx` is `classes_idx`. -/
noncomputable def getProb (as : List ℝ → List ℕ) (stats : List ℝ) (classes : List (List ℕ)) (idx : List (ℕ × ℕ))
    (corder morder : ℕ) (cls : Cls) : Res ℝ :=
  match getModel as stats classes corder morder cls with
  | .error e => .error e
  | .ok m =>
    match cls with
    | .ignore => match probs stats with
      | .error e => .error e
      | .ok p => match p[m]? with | some v => .ok v | none => .error .index
    | _ => match classOf idx m with
      | none => .error .key
      | some c => match probs (bestStats stats classes) with
        | .error e => .error e
        | .ok p => match p[c]? with | some v => .ok v | none => .error .index

/-- `bestclasses(dgs)` — multimodelselection.py:488-506, before `np.unique`; `best dg` is
`self.sortedclassprobs[dg][-1]`. -/
def bestOver {D : Type} (best : D → Res ℕ) (dgs : List D) : Res (List ℕ) := dgs.mapM best

/-- `classbestdgs(cls, dgs)` — multimodelselection.py:529-550: the argument `dgs` is not used. -/
def classbestdgs {D : Type} (all : List D) (best : D → ℕ) (cls : ℕ) (_dgs : Option (List D)) : List D :=
  all.filter (fun dg => best dg == cls)

/-- `modelbestdgs(model, dgs)` — multimodelselection.py:552-578; `bestModel dg c` is
`self.sortedclasses[dg][c][-1]`. -/
def modelbestdgs {D : Type} (all : List D) (best : D → ℕ) (bestModel : D → ℕ → ℕ) (idx : List (ℕ × ℕ)) (model : ℕ)
    (dgs : Option (List D)) : Res (List D) :=
  match classOf idx model with
  | none => .error .key
  | some c => .ok ((classbestdgs all best c dgs).filter (fun dg => bestModel dg c == model))

/-- `dg_key(dg_in)` — multimodelselection.py:473-486; `argmin` is numpy's. -/
def dgKey [Field K] [LinearOrder K] (argmin : List K → Option ℕ) (dgs : List K) (v : K) : Res K :=
  match argmin (dgs.map (fun d => abs (d - v))) with
  | none => .error .value
  | some i => match dgs[i]? with | some d => .ok d | none => .error .index

end Verif.Multimodel
