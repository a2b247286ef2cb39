import Verif.Extract.EstimateModel
import Verif.ModelCluster.ValueModel

/-!
# Model of `PeakExtraction.plot` (`src/diffpy/srmise/peakextraction.py:269-304`)

What is given to `plt.plot`, as alternating abscissae and ordinates; the drawing itself is not modelled.
-/

namespace Verif.Parts.Extract

open Verif.Py Verif.PeakList Verif.Parts.ModelCluster

section

variable {K : Type} [Field K] [LinearOrder K]

/-- The cluster made of the initial peaks — peakextraction.py:289-303, after `defaultvars`: the data of the range with
`dy` (not `effective_dy`). -/
def initialCluster (W : World K) (H : Heap K) (s : Extraction.PX K) : Res (Cluster K) :=
  match s.x, s.y, s.dy, s.rng, s.baseline, s.initialPeaks, s.cres, s.errorMethod, s.pf with
  | some x, some y, some dy, some (some a, some b), some (.inst bl), some ip, some cres, some em, some pf =>
    match Extraction.getrangeslice x a b with
    | .error e => .error e
    | .ok (lo, hi) =>
      let sl := some (lo, hi.toNat)
      newCluster W ⟨getSlice x sl, getSlice y sl, getSlice dy sl, H.base bl, [], cres, em, H.funcs pf⟩ (H.peaks ip) (some (H.base bl))
        (getSlice x sl) (getSlice y sl) (getSlice dy sl) none
  | _, _, _, _, _, _, _, _, _ => .error .type

/-- `plot(**kwds)` — peakextraction.py:269-304: the arguments of `plt.plot`, and the object afterwards.  The dictionary
`kwds` is passed as the argument `joined` of `plottable`, where only its truth counts: true if there is any keyword. -/
def plot {α : Type} (W : World K) (D : Extraction.Defaults K) (kwds : List (String × α)) (o : Obj K) : Res (List (List K)) × Obj K :=
  match o.extracted with
  | some c => (plottable c (!kwds.isEmpty), o)
  | none =>
    match Extraction.defaultvars D o.vars with
    | (.error e, s) => (.error e, { o with vars := s })
    | (.ok (), s) =>
      match initialCluster W o.heap s with
      | .error e => (.error e, { o with vars := s })
      | .ok c => (plottable c (!kwds.isEmpty), { o with vars := s })

end

end Verif.Parts.Extract
