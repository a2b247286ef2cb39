import Verif.Peaks.Estimate
import Verif.Extract.CodeModel

/-!
# The peak functions of the package in the search

`Extract.Numerics` leaves open the values of the functions at a point, `estimate_parameters` and `scale_at`.  Here they are those of
`Gaussian` and `GaussianOverR` (`Verif.Peaks`).  A NaN is some number `nan` of which nothing is known.
-/

set_option linter.unusedSectionVars false

namespace Verif.Parts.Package

open Verif.Py Verif.Parts.Extract Verif.Parts.ModelCluster

/-- The class of a function and its `maxwidth`, by the identity of the function; for a `TerminationRipples`, those of the function it
decorates. -/
abbrev Table : Type := ℕ → Peaks.Shape × ℝ

/-- The formats — gaussian.py:52-56, gaussianoverr.py:52-56. -/
def formats : Function.Formats := ⟨["internal", "pwa", "mu_sigma_area"], "internal", "pwa"⟩

/-- `_transform_parametersraw` of a list — gaussian.py:308-380.  Simplification: fewer than three values are IndexError whatever the
formats (the code looks at the third only to make the area positive, and returns early for equal formats). -/
noncomputable def rawTransform (nan mw : ℝ) (v : List ℝ) (i o : String) : Res (List ℝ) :=
  match v with
  | a :: b :: c :: rest =>
    match Peaks.transform mw ⟨a, b, c⟩ i o with
    | .error e => .error e
    | .ok none => .ok (a :: nan :: c :: rest)
    | .ok (some q) => .ok (q.pos :: q.wid :: q.area :: rest)
  | _ => .error .index

/-- The three values of a list. -/
def three (v : List ℝ) : Peaks.P := ⟨v.getD 0 0, v.getD 1 0, v.getD 2 0⟩

/-- The rows of the Jacobian; none where it cannot be computed — gaussian.py:275 (`c33_gaussian_jacobian_raises`). -/
noncomputable def rawJac (s : Peaks.Shape × ℝ) (v r : List ℝ) (free : List Bool) : List (Option (List ℝ)) :=
  match Peaks.jacobianRaw s.1 s.2 (three v) r free with
  | .ok rows => rows
  | .error _ => []

/-- `Gaussian(maxwidth)`, `GaussianOverR(maxwidth)` as the owner of a peak — gaussian.py:47-86, gaussianoverr.py:47-86. -/
noncomputable def function (nan : ℝ) (id : ℕ) (s : Peaks.Shape × ℝ) : Owner ℝ where
  id := id
  npars := 3
  dict := [("position", 0), ("width", 1), ("area", 2)]
  rawValue v r := r.map (Peaks.value s.1 s.2 (three v))
  rawJac := rawJac s
  transform := Function.transformParameters formats (rawTransform nan s.2)

/-- The answer of a computation in which a parameter may be NaN: then so are, as far as is known, all of them. -/
def orNan (nan : ℝ) (r : Res (Option Peaks.P)) : Res (List ℝ) :=
  match r with
  | .error e => .error e
  | .ok none => .ok [nan, nan, nan]
  | .ok (some q) => .ok [q.pos, q.wid, q.area]

/-- `scale_at(pars, x, scale)` of the function — gaussian.py:190-240, gaussianoverr.py:190-254. -/
noncomputable def scaleOf (s : Peaks.Shape × ℝ) (p : Peaks.P) (x scale : ℝ) : Res (Option Peaks.P) :=
  match s.1 with
  | .gaussian => Peaks.scaleGaussian s.2 p x scale
  | .overR => Peaks.scaleOverR s.2 p x scale

/-- `peak.owner.scale_at(peak.pars, x, scale)` — gaussian.py:190-240, gaussianoverr.py:190-254.  Fewer or more than three values: IndexError,
or the rest is ignored; here the answer has as many values as the peak (there are three, C98). -/
noncomputable def scaled (nan : ℝ) (T : Table) (p : Part ℝ) (x scale : ℝ) : Res (List ℝ) :=
  match p.pars with
  | [a, b, c] => orNan nan (scaleOf (T p.owner.id) ⟨a, b, c⟩ x scale)
  | _ => .error .index

/-- `func.estimate_parameters(r, y)` — gaussian.py:90-188, gaussianoverr.py:90-188. -/
noncomputable def estimated (nan : ℝ) (T : Table) (f : Owner ℝ) (r y : List ℝ) : Res (List ℝ) :=
  orNan nan (Peaks.estimate (T f.id).1 (T f.id).2 r y)

/-- The numerics `N` with the functions of the package: still open are the optimiser, `argsort`, and the evaluator of each
`error_method`. -/
noncomputable def packaged (nan : ℝ) (T : Table) (N : Numerics ℝ) : Numerics ℝ :=
  { N with
    val := fun p x => (p.owner.rawValue p.pars [x]).headD 0
    sc := scaled nan T
    func := fun i => function nan i (T i)
    guess := estimated nan T }

/-- `TerminationRipples(base, qmax)` as the owner of a peak — terminationripples.py:30-75, 84-200: a new object with the parameters, formats
and raw value and Jacobian of the function that it decorates.  (Its `value`, see `Verif.Ripples`, is defined for grids, not at a
point; it is not part of an `Owner`.) -/
def rippled (fresh : ℝ → ℕ → ℕ) (qmax : ℝ) (base : Owner ℝ) : Owner ℝ := { base with id := fresh qmax base.id }

end Verif.Parts.Package
