import Verif.ModelCluster.ValueProps
import Verif.Extract.EstimateModel

/-!
# Model of what is printed (`__str__` of parts, models, clusters and extractions:
`src/diffpy/srmise/modelparts.py:425-427, 750-752`, `modelcluster.py:1452-1461`, `peakextraction.py:255-267`)

The numbers and their order; their text (`str` of an array or a number) is not modelled.
-/

namespace Verif.Parts.Print

open Verif.Py Verif.PeakList Verif.Extraction Verif.Parts.ModelCluster Verif.Parts.Extract

variable {K : Type} [Field K] [LinearOrder K]

/-- `str(part)` — modelparts.py:750-752: the parameters in the default output format of the function. -/
def partStr (p : Part K) : Res (List K) := p.owner.transform p.pars (some "internal") (some "default_output")

/-- `str(model)` — modelparts.py:425-427: one line per part. -/
def modelStr : List (Part K) → Res (List (List K))
  | [] => .ok []
  | p :: ps => do
    let v ← partStr p
    let vs ← modelStr ps
    return v :: vs

/-- The four items of the text of a cluster. -/
structure ClusterText (K : Type) where
  slice : Option Slice
  quality : Option K
  baseline : Option (List K)
  peaks : List (List K)

/-- `str(cluster)` — modelcluster.py:1452-1461. -/
def clusterStr (kind : Evaluator.Kind) (c : Cluster K) : Res (ClusterText K) := do
  let a ← quality kind c false 0
  let b ← match c.baseline with
    | none => (.ok none : Res (Option (List K)))
    | some b => (partStr b).map some
  let m ← modelStr c.model
  return ⟨c.slice, a.stat, b, m⟩

/-- The text of an extraction: of the variables `initial_peaks` and `baseline` what their parameters are (the other variables are printed as they
are), then the extracted cluster or that there is none. -/
structure ExtractionText (K : Type) where
  initialPeaks : Option (List (List K))
  baseline : Option (List K)
  extracted : Option (ClusterText K)

/-- `str(self.initial_peaks)` — peakextraction.py:259 for this variable. -/
def initialStr (o : Obj K) : Res (Option (List (List K))) :=
  match o.vars.initialPeaks with
  | none => .ok none
  | some i => (modelStr (o.heap.peaks i)).map some

/-- `str(self.baseline)` — peakextraction.py:259 for this variable; a function is printed as an object. -/
def baselineStr (o : Obj K) : Res (Option (List K)) :=
  match o.vars.baseline with
  | some (.inst i) => (partStr (o.heap.base i)).map some
  | _ => .ok none

/-- The text after the variables — peakextraction.py:260-265. -/
def extractedStr (kind : ℕ → Evaluator.Kind) (o : Obj K) : Res (Option (ClusterText K)) :=
  match o.extracted with
  | none => .ok none
  | some c => (clusterStr (kind c.method) c).map some

/-- `str(extraction)` — peakextraction.py:255-267, in the order of `extractvars` (77-87): the initial peaks before the baseline. -/
def extractionStr (kind : ℕ → Evaluator.Kind) (o : Obj K) : Res (ExtractionText K) := do
  let ip ← initialStr o
  let b ← baselineStr o
  let e ← extractedStr kind o
  return ⟨ip, b, e⟩

end Verif.Parts.Print
