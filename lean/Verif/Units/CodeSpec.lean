import Verif.Units.Vars

/-!
# Specification for C104: the numerics of the code in other units

What a change of units does to the optimiser, and when two sets of numerics are the same in two units.
-/

set_option linter.unusedSectionVars false

namespace Verif.Parts.Units

open Verif.Py Verif.PeakList Verif.Parts.ModelCluster Verif.Parts.Extract Verif.Extraction

variable {K : Type} [Field K] [LinearOrder K]

/-- The factors of the free parameters of a part. -/
def Change.factors (u : Change K) (p : Part K) : List K := selectMask ((List.range p.free.length).map (u.w p.owner)) p.free

/-- The vector of all free parameters of the parts, in the new units. -/
def Change.vec (u : Change K) (m : List (Part K)) (v : List K) : List K := List.zipWith (fun f x => f * x) (m.flatMap u.factors) v

/-- A covariance matrix of all free parameters, in the new units. -/
def Change.mat (u : Change K) (m : List (Part K)) (c : List (List K)) : List (List K) :=
  c.mapIdx (fun i row => row.mapIdx (fun j v => (m.flatMap u.factors).getD i 1 * (m.flatMap u.factors).getD j 1 * v))

/-- The end of a run of `leastsq` in the new units: the residuals, deviations over uncertainties, have no unit. -/
def Change.outcome (u : Change K) (m : List (Part K)) : Parts.Outcome K → Parts.Outcome K
  | .raises e => .raises e
  | .done x ier c f => .done (u.vec m x) ier (c.map (u.mat m)) f

/-- A run of `leastsq` in the new units. -/
def Change.run (u : Change K) (m : List (Part K)) (l : Lsq K) : Lsq K := ⟨l.trace.map (u.vec m), u.outcome m l.outcome⟩

/-- A run of `leastsq` that looks at vectors with one value for each free parameter. -/
def Packed (m : List (Part K)) (l : Lsq K) : Prop :=
  (∀ v ∈ l.trace, v.length = npars m false) ∧ ∀ x ier c f, l.outcome = .done x ier c f → x.length = npars m false

/-- `N'` computes in the new units what `N` computes in the old ones: orders are the same, functions have the same graph, and the
optimiser takes the same steps (MINPACK's does: it measures each parameter by the norm of its column of the Jacobian).  Parameters are
floating-point numbers: storing does not change them. -/
structure NumericsAlike (u : Change K) (N N' : Numerics K) : Prop where
  as : ∀ l, N'.as (u.xs l) = N.as l
  asY : ∀ l, N'.as (u.ys l) = N.as l
  pick : ∀ l, N'.pick l = N.pick l
  kind : ∀ e, N'.kind e = N.kind e
  float : ∀ v, N.trunc v = v
  float' : ∀ v, N'.trunc v = v
  val : ∀ p x, N'.val (u.part p) (u.a * x) = u.k * N.val p x
  sc : ∀ p x s, N'.sc (u.part p) (u.a * x) s = (N.sc p x s).map (u.pars p.owner)
  func : ∀ f, N'.func f = u.fn (N.func f)
  guess : ∀ f r y, N'.guess (u.fn (N.func f)) (u.xs r) (u.ys y) = (N.guess (N.func f) r y).map (u.pars (N.func f))
  transform : ∀ o v, (u.fn o).transform (u.pars o v) (some "internal") (some "internal") =
    (o.transform v (some "internal") (some "internal")).map (u.pars o)
  same : ∀ o o', o.id = o'.id → o.dict = o'.dict → u.w o = u.w o'
  opt : ∀ c m, N'.opt (u.cluster c) (u.parts m) = (u.run m (N.opt c m).1, u.run m (N.opt c m).2)
  packed : ∀ c m, Packed m (N.opt c m).1 ∧ Packed m (N.opt c m).2

end Verif.Parts.Units
