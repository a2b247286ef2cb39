import Verif.Covariance.FitProps
import Verif.Covariance.Report
import Verif.Extract.CodeExample
import Verif.Extract.Fitting

/-!
# The covariance that a fit of a cluster, `fit_single` and `extract_single` return
-/

set_option linter.unusedSectionVars false

namespace Verif.Parts.Extract

open Verif.Py Verif.PeakList Verif.Parts.ModelCluster Verif.Parts.Covariance Verif.Extraction

variable {K : Type} [Field K] [LinearOrder K]

/-- `ModelParts.fit(..., cov, cov_format)` on the data of a cluster — modelcluster.py:1079-1087. -/
def covFitOn (N : Numerics K) (D : Part K → Res (ℕ → ℕ → K)) (outF : Option String) (c : Cluster K) (st : MC K)
    (ps : List (Part K)) : Res Unit × List (Part K) × MC K :=
  covFit D outF ⟨fun _ => false, N.trunc⟩ c.r.length (N.opt c ps).1 (N.opt c ps).2 st ps

/-- The numerics of `fit(..., cov=st, cov_format=outF)` on a cluster — modelcluster.py:1079-1087. -/
def withCov (N : Numerics K) (D : Part K → Res (ℕ → ℕ → K)) (outF : Option String) (st : MC K) (c : Cluster K) : Env K :=
  { codeEnv N c with lsq := fun ps => ((covFitOn N D outF c st ps).1, (covFitOn N D outF c st ps).2.1) }

/-- The cluster on which `ModelParts.fit` is called, if it is: with its peaks, or with the estimated one —
modelcluster.py:1044-1058. -/
def started (E : Env K) (o : Opts) (c : Cluster K) : Option (Cluster K) :=
  if c.neverFit then none
  else if c.model = [] then
    if o.estimate then
      match estimatepeak E c.model with
      | (.error _, _) => none
      | (.ok _, m) => some { c with model := m }
    else none
  else some c

/-- `fmodel`: the peaks, and the baseline if it is fitted — modelcluster.py:1069-1076. -/
def fitParts (o : Opts) (c : Cluster K) : List (Part K) := c.model ++ (fitBaseline o c).toList

/-- `fit(..., cov=st, cov_format=outF)` of a cluster — modelcluster.py:1010-1143.  The object `st` is used by the
call of `ModelParts.fit` only. -/
def clusterFit (N : Numerics K) (D : Part K → Res (ℕ → ℕ → K)) (outF : Option String) (o : Opts) (c : Cluster K) (st : MC K) :
    Res (Option (Evaluator.Ev K)) × Cluster K × MC K :=
  ((ModelCluster.fit (withCov N D outF st c) o c).1, (ModelCluster.fit (withCov N D outF st c) o c).2.1,
    match started (codeEnv N c) o c with
    | none => st
    | some c' => (covFitOn N D outF c st (fitParts o c')).2.2)

/-- `fit_single()` — peakextraction.py:1367-1408: the new `extracted` and the covariance. -/
def fitSingleCov (N : Numerics K) (G : Part K → Res (ℕ → ℕ → K)) (D : Extraction.Defaults K) (o : Obj K) : Res (Cluster K × MC K) :=
  match Extraction.defaultvars D o.vars with
  | (.error e, _) => .error e
  | (.ok (), s) =>
    match jobOf o.heap s with
    | .error e => .error e
    | .ok J =>
      match newCluster (codeWorld N) J J.ip (some J.bl) J.x J.y J.dy none with
      | .error e => .error e
      | .ok c =>
        match clusterFit N G (some "default_output") { fitbaseline := true, estimate := false } c MC.empty with
        | (.error e, _, _) => .error e
        | (.ok _, c', st) => .ok (c', st)

/-- `extract_single()` at the top level until the last fit — peakextraction.py:816-1346. -/
def beforeLast (N : Numerics K) (H : Heap K) (D : Extraction.Defaults K) (s : PX K) : Res (Cluster K) :=
  match Extraction.defaultvars D s with
  | (.error e, _) => .error e
  | (.ok (), s) =>
    match jobOf H s with
    | .error e => .error e
    | .ok J =>
      search (codeWorld N) J (some (fun r y e =>
          match subSearch D s r y e with
          | .error e => .error e
          | .ok t => extractSingle (codeWorld N) H D 2 2 t)) false

/-- `extract_single()` at the top level — peakextraction.py:816-1365: the new `extracted` and the covariance. -/
def extractCov (N : Numerics K) (G : Part K → Res (ℕ → ℕ → K)) (H : Heap K) (D : Extraction.Defaults K) (s : PX K) :
    Res (Cluster K × MC K) :=
  match beforeLast N H D s with
  | .error e => .error e
  | .ok c =>
    match clusterFit N G (some "default_output") { fitbaseline := true } c MC.empty with
    | (.error e, _, _) => .error e
    | (.ok _, c', st) => .ok (c', st)

end Verif.Parts.Extract
