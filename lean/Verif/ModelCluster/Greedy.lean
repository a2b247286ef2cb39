import Verif.ModelCluster.Model

/-!
# Model of `ModelCluster.augment` and `ModelCluster.prune`
(`src/diffpy/srmise/modelcluster.py:1388-1450, 1463-1651`)

Both are greedy searches around `fit`.  `np.array(quals).argsort()[-1]` is an argument `pick`: it returns the
index of some element that no other beats.
-/

namespace Verif.Parts.ModelCluster

open Verif.Py Verif.PeakList

variable {K : Type} [Field K] [LinearOrder K]

/-! ### augment -/

/-- One trial of `augment` — modelcluster.py:1427-1430: the model is set to the test model, fitted,
evaluated.  Returns the quality of `self.model`, the content of the *list object* `test_models[i]` (which is
not the model any more if the fit reverted), and the peak object from `source_model`, which the test model
contains by reference. -/
def trial (E : Env K) (c : Cluster K) (best : List (Part K)) (s : Part K) :
    Res (Evaluator.Ev K × List (Part K) × Part K) × Cluster K :=
  match fit E {} { c with model := best ++ [s] } with
  | (.error e, c', _) => (.error e, c')
  | (.ok _, c', l) =>
    let s' := if c.neverFit then s else ((E.lsq (best ++ [s])).2.getLast?).getD s
    (.ok (E.quality c'.model c'.baseline, l, s'), c')

/-- The trials of one round — modelcluster.py:1421-1430. -/
def trials (E : Env K) : Cluster K → List (Part K) → List (Part K) →
    Res (List (Evaluator.Ev K × List (Part K) × Part K)) × Cluster K
  | c, _, [] => (.ok [], c)
  | c, best, s :: ss =>
    match trial E c best s with
    | (.error e, c') => (.error e, c')
    | (.ok t, c') =>
      match trials E c' best ss with
      | (.error e, c'') => (.error e, c'')
      | (.ok ts, c'') => (.ok (t :: ts), c'')

/-- The search — modelcluster.py:1420-1438.  Each accepted round removes one peak from `source_model`, so
the first argument, its length, is always enough (`augmentLoop_fuel`).  Comparing qualities of different
methods would be AssertionError (`other 2`). -/
def augmentLoop (E : Env K) (pick : List (Evaluator.Ev K) → ℕ) :
    ℕ → Cluster K → List (Part K) → Evaluator.Ev K → List (Part K) → Res (List (Part K)) × Cluster K
  | 0, c, best, _, _ => (.ok best, c)
  | n + 1, c, best, bestQual, source =>
    if source = [] then (.ok best, c)
    else match trials E c best source with
      | (.error e, c') => (.error e, c')
      | (.ok ts, c') =>
        match ts[pick (ts.map Prod.fst)]? with
        | none => (.error .index, c')
        | some (q, l, _) =>
          match Evaluator.gt q bestQual with
          | .error _ => (.error (.other 2), c')
          | .ok true =>
            augmentLoop E pick n c' l q ((ts.map (fun t => t.2.2)).eraseIdx (pick (ts.map Prod.fst)))
          | .ok false => (.ok best, c')

/-- `augment(source)` — modelcluster.py:1388-1450. -/
def augment (E : Env K) (pick : List (Evaluator.Ev K) → ℕ) (c : Cluster K) (source : List (Part K)) :
    Res Unit × Cluster K :=
  match augmentLoop E pick source.length c c.model (E.quality c.model c.baseline) source with
  | (.error e, c') => (.error e, c')
  | (.ok best, c') =>
    match replacepeaks E.as c'.model best 0 c'.model.length with
    | (.error e, m) => (.error e, { c' with model := m })
    | (.ok (), m) =>
      match fit E {} { c' with model := m } with
      | (.error e, c'', _) => (.error e, c'')
      | (.ok _, c'', _) => (.ok (), c'')

/-! ### prune -/

/-- What `prune` uses beside lists: `env out` fits and evaluates on the cluster's data minus the baseline
and minus the peaks `out`; `qual out m kshift` is the quality there with a shifted number of parameters. -/
structure PruneEnv (K : Type) where
  env : List (Part K) → Env K
  qual : List (Part K) → List (Part K) → ℤ → Evaluator.Ev K

/-- `peak_range` — modelcluster.py:1496. -/
def peakRange : ℕ := 3

/-- The fitted neighbourhood of peak `i`, without it — modelcluster.py:1541-1544. -/
def seg (best : List (Part K)) (i : ℕ) : List (Part K) :=
  getSlice best (some (i - peakRange, i)) ++
    getSlice best (some (i + 1, min (i + peakRange + 1) best.length))

/-- The peaks that stay as they are: left and right of the neighbourhood — modelcluster.py:1558-1568,
1623-1625. -/
def leftOf (best : List (Part K)) (i : ℕ) : List (Part K) := best.take (i - peakRange)

/-- See `leftOf`; `n` is the length the upper bound is cut at. -/
def rightOf (best : List (Part K)) (i n : ℕ) : List (Part K) := best.drop (min (i + peakRange + 1) n)

/-- `addpars` — modelcluster.py:1553.  `npars()` counts fixed parameters too, `npars(count_fixed=False)`
does not. -/
def addpars (best : List (Part K)) (i : ℕ) : ℤ :=
  (npars best true : ℤ) - npars (seg best i) true - ((best[i]?.map (fun p => p.npars false)).getD 0 : ℕ)

/-- One check: the quality without peak `i`, and the list object `check_models[i]` —
modelcluster.py:1538-1589. -/
def checkOne (P : PruneEnv K) (mc : Cluster K) (best : List (Part K)) (i : ℕ) :
    Res (Evaluator.Ev K × List (Part K)) × Cluster K :=
  let out := leftOf best i ++ rightOf best i best.length
  match fit (P.env out) { estimate := false } { mc with model := seg best i } with
  | (.error e, mc', _) => (.error e, mc')
  | (.ok _, mc', l) => (.ok (P.qual out mc'.model (addpars best i), l), mc')

/-- A checked peak: its index, its quality, its list object. -/
abbrev Check (K : Type) := ℕ × Evaluator.Ev K × List (Part K)

/-- The checks of one round, for the indices in the list — modelcluster.py:1530-1589: only removable peaks
are checked. -/
def checks (P : PruneEnv K) (best : List (Part K)) : Cluster K → List ℕ → Res (List (Check K)) × Cluster K
  | mc, [] => (.ok [], mc)
  | mc, i :: is =>
    if (best[i]?.map (fun p => p.removable)).getD false then
      match checkOne P mc best i with
      | (.error e, mc') => (.error e, mc')
      | (.ok (q, l), mc') =>
        match checks P best mc' is with
        | (.error e, mc'') => (.error e, mc'')
        | (.ok cs, mc'') => (.ok ((i, q, l) :: cs), mc'')
    else checks P best mc is

/-- Whether `check_models` still has an entry other than None after the round and after
`del check_models[idx]` — modelcluster.py:1586-1587, 1641, 1516: a checked peak other than `idx` whose
quality was not below the best one. -/
def stillChecking (bestQual : Evaluator.Ev K) (cs : List (Check K)) (idx : ℕ) : Bool :=
  cs.any (fun c => decide (c.1 ≠ idx) && (Evaluator.lt c.2.1 bestQual == .ok false))

/-- The main loop — modelcluster.py:1516-1647.  `go` is the loop condition, `origLen` is
`len(orig_model)`.  Each further round has a shorter best model (`pruneLoop_fuel`),
so the fuel never runs out when it is larger than the number of peaks (`.other 3` stands for running out).
Returns the result and `self.model`.  Simplification: if the final fit of a later round raises (something other
than SrMiseFitError), the peaks of `self.model` that it moved, being shared, are not moved here. -/
def pruneLoop (P : PruneEnv K) (pick : List (Evaluator.Ev K) → ℕ) :
    ℕ → Cluster K → List (Part K) → Bool → List (Part K) → Evaluator.Ev K → ℕ → Res Unit × List (Part K)
  | 0, _, self, _, _, _, _ => (.error (.other 3), self)
  | n + 1, mc, self, go, best, bestQual, origLen =>
    if go = false then (.ok (), self)
    else match checks P best mc (List.range best.length) with
      | (.error e, _) => (.error e, self)
      | (.ok cs, mc') =>
        match cs[pick (cs.map (fun c => c.2.1))]? with
        | none => (.error .index, self)
        | some (idx, q, l) =>
          match Evaluator.gt q bestQual with
          | .error _ => (.error (.other 2), self)
          | .ok false => (.ok (), self)
          | .ok true =>
            match fit (P.env []) { estimate := false }
                { mc' with model := leftOf best idx ++ l ++ rightOf best idx origLen } with
            | (.error e, _, _) => (.error e, self)
            | (.ok _, mc'', _) =>
              if mc''.model = [] then (.ok (), mc''.model)
              else pruneLoop P pick n mc'' mc''.model (stillChecking bestQual cs idx) mc''.model
                (P.qual [] mc''.model 0) (origLen - 1)

/-- `prune()` — modelcluster.py:1463-1651; `mc` is the auxiliary cluster on the data without baseline. -/
def prune (P : PruneEnv K) (pick : List (Evaluator.Ev K) → ℕ) (mc : Cluster K) (m : List (Part K)) :
    Res Unit × List (Part K) :=
  if m = [] then (.ok (), m)
  else pruneLoop P pick (m.length + 1) mc m (m.any (fun p => p.removable)) m (P.qual [] m 0) m.length

end Verif.Parts.ModelCluster
