import Verif.Multimodel.StateModel
import Verif.ModelCluster.Model

/-!
# Model of `MultimodelSelection.animate_probs` (`src/diffpy/srmise/multimodelselection.py:209-253`)

Of a result only the model and the baseline matter.  `setcurrent` (peakstability.py:131-159, C80) makes a cluster whose `model` *is*
the list of the result (modelcluster.py:492, no copy), so what the animation does to the cluster it does to the result.  Drawing and
waiting are left out; `plt.plot(self.dgs, ...)` raises if there are not as many values as `dgs`.
-/

namespace Verif.Parts.Animate

open Verif.Py Verif.PeakList Verif.Parts.ModelCluster Verif.Multimodel

variable {K B D : Type} [Zero K] [DecidableEq D]

/-- A result: its model and its baseline. -/
abbrev Entry (K B : Type) := List (Part K) × B

/-- `line.set_ydata(self.aicprobs[dg])`, `self.sortedprobs[dg][-1]` — multimodelselection.py:238-241. -/
def bestNow {R : Type} (st : State R D) (dg : D) : Res ℕ :=
  match look st.aicprobs dg with
  | .error e => .error e
  | .ok _ => lookEnd st.sortedprobs dg 0

/-- `self.dgs[best_idx]`, `self.aicprobs[dg][best_idx]` — multimodelselection.py:230, 247-248. -/
def dot {R : Type} (st : State R D) (dg : D) (b : ℕ) : Res Unit :=
  match nth st.dgs b with
  | .error e => .error e
  | .ok _ => (lookNth st.aicprobs dg b).map (fun _ => ())

/-- `self.ppe.extracted.replacepeaks(self.results[best_idx][1], s)`, where the cluster's model is the list of result `a` —
multimodelselection.py:242-244. -/
def put (as : List K → List ℕ) (rs : List (Entry K B)) (a b : ℕ) : Res Unit × List (Entry K B) :=
  match rs[a]?, rs[b]? with
  | some ma, some mb =>
    match replacepeaks as ma.1 mb.1 0 ma.1.length with
    | (.error e, _) => (.error e, rs)
    | (.ok (), m) => (.ok (), rs.set a (m, ma.2))
  | _, _ => (.error .index, rs)

/-- The loop — multimodelselection.py:236-253: what is shown at each `dg`, and the results afterwards. -/
def loop (as : List K → List ℕ) (st : State (Entry K B) D) (a : ℕ) : List D → ℕ → List (Entry K B) →
    Res (List (Entry K B)) × List (Entry K B)
  | [], _, rs => (.ok [], rs)
  | dg :: dgs, best, rs =>
    match bestNow st dg with
    | .error e => (.error e, rs)
    | .ok b =>
      match (if b = best then (.ok (), rs) else put as rs a b : Res Unit × List (Entry K B)) with
      | (.error e, rs) => (.error e, rs)
      | (.ok (), rs) =>
        match dot st dg b, nth rs a with
        | .ok _, .ok f =>
          match loop as st a dgs b rs with
          | (.error e, rs) => (.error e, rs)
          | (.ok fs, rs) => (.ok (f :: fs), rs)
        | .error e, _ => (.error e, rs)
        | _, .error e => (.error e, rs)

/-- `animate_probs()` — multimodelselection.py:209-253; `setcurrent` is what that call returns. -/
def animateProbs (as : List K → List ℕ) (setcurrent : ℕ → Res Unit) (st : State (Entry K B) D) : Res (List (Entry K B)) × List (Entry K B) :=
  match st.dgs with
  | [] => (.error .index, st.results)
  | dg :: dgs =>
    match lookEnd st.sortedprobs dg 0, look st.aicprobs dg with
    | .ok a, .ok ps =>
      if ps.length ≠ st.dgs.length then (.error .value, st.results)
      else
        match dot st dg a, setcurrent a, nth st.results a with
        | .ok _, .ok _, .ok f =>
          match loop as st a dgs a st.results with
          | (.error e, rs) => (.error e, rs)
          | (.ok fs, rs) => (.ok (f :: fs), rs)
        | .error e, _, _ => (.error e, st.results)
        | _, .error e, _ => (.error e, st.results)
        | _, _, .error e => (.error e, st.results)
    | .error e, _ => (.error e, st.results)
    | _, .error e => (.error e, st.results)

/-! ### `animate_classprobs` — multimodelselection.py:255-328 -/

/-- `self.classprobs[dg]`, `self.sortedclassprobs[dg][-1]`, later `self.classprobs[dg][bestclass_idx]` — multimodelselection.py:310-313,
324; simplification: the order of errors. -/
def classNow {R : Type} (st : State R D) (dg : D) : Res ℕ :=
  match lookEnd st.sortedclassprobs dg 0 with
  | .error e => .error e
  | .ok c => (lookNth st.classprobs dg c).map (fun _ => c)

/-- The loop — multimodelselection.py:308-328: what is shown at each `dg`; `m` is the model of the cluster `tempcluster`, a copy. -/
def classLoop (as : List K → List ℕ) (st : State (Entry K B) D) : List D → ℕ → Entry K B → Res (List (Entry K B))
  | [], _, _ => .ok []
  | dg :: dgs, cls, m =>
    match classNow st dg with
    | .error e => .error e
    | .ok c =>
      match (if c = cls then .ok m else
        match lookClass st dg c 0 with
        | .error e => .error e
        | .ok i => match nth st.results i with
          | .error e => .error e
          | .ok r => match replacepeaks as m.1 r.1 0 m.1.length with
            | (.error e, _) => .error e
            | (.ok (), m') => .ok (m', m.2) : Res (Entry K B)) with
      | .error e => .error e
      | .ok m => match classLoop as st dgs c m with
        | .error e => .error e
        | .ok fs => .ok (m :: fs)

/-- `animate_classprobs()` — multimodelselection.py:255-328; it has no way to change the results, as it works on a copy of the cluster.
The residual needs the cluster's data and is not modelled. -/
def animateClassprobs (as : List K → List ℕ) (setcurrent : ℕ → Res Unit) (st : State (Entry K B) D) : Res (List (Entry K B)) :=
  match st.dgs with
  | [] => .error .index
  | dg :: dgs =>
    match classNow st dg with
    | .error e => .error e
    | .ok c =>
      match lookClass st dg c 0 with
      | .error e => .error e
      | .ok i =>
        match nth st.dgs i, setcurrent i, nth st.results i with
        | .ok _, .ok _, .ok f =>
          match classLoop as st dgs c f with
          | .error e => .error e
          | .ok fs => .ok (f :: fs)
        | .error e, _, _ => .error e
        | _, .error e, _ => .error e
        | _, _, .error e => .error e

end Verif.Parts.Animate
