import Verif.Extract.CodeModel
import Mathlib.Tactic.Ring

/-!
# Property C104: the result does not depend on the units of the data

## Specification: what a change of units does

Coordinates are multiplied by `a`, intensities (and their uncertainties) by `k`; a function becomes the function `fn o` of the new
units, and its parameter `i` is multiplied by `w o i`.
-/

set_option linter.unusedSectionVars false

namespace Verif.Parts.Units

open Verif.Py Verif.PeakList Verif.Parts.ModelCluster Verif.Parts.Extract Verif.Extraction

variable {K : Type} [Field K] [LinearOrder K]

/-- A change of units. -/
structure Change (K : Type) where
  a : K
  k : K
  fn : Owner K → Owner K
  w : Owner K → ℕ → K

/-- Coordinates in the new units. -/
def Change.xs (u : Change K) (l : List K) : List K := l.map (fun v => u.a * v)

/-- Intensities in the new units. -/
def Change.ys (u : Change K) (l : List K) : List K := l.map (fun v => u.k * v)

/-- Parameters of the function `o` in the new units. -/
def Change.pars (u : Change K) (o : Owner K) (v : List K) : List K := v.mapIdx (fun i x => u.w o i * x)

/-- A peak or a baseline in the new units. -/
def Change.part (u : Change K) (p : Part K) : Part K := { p with owner := u.fn p.owner, pars := u.pars p.owner p.pars }

/-- Peaks in the new units. -/
def Change.parts (u : Change K) (m : List (Part K)) : List (Part K) := m.map u.part

/-- A cluster in the new units: the same slice of the data, the same functions and evaluator, the same flags. -/
def Change.cluster (u : Change K) (c : Cluster K) : Cluster K :=
  { c with model := u.parts c.model, baseline := c.baseline.map u.part, r := u.xs c.r, y := u.ys c.y, err := u.ys c.err }

/-- Uncertainties in the new units. -/
def Change.eff (u : Change K) : EffDy K → EffDy K
  | .unset => .unset
  | .scalar v => .scalar (u.k * v)
  | .array l => .array (u.ys l)

/-- The extraction variables in the new units. -/
def Change.vars (u : Change K) (s : PX K) : PX K :=
  { s with
    x := s.x.map u.xs
    y := s.y.map u.ys
    dx := s.dx.map u.xs
    dy := s.dy.map u.ys
    effdy := u.eff s.effdy
    rng := s.rng.map (fun r => (r.1.map (fun v => u.a * v), r.2.map (fun v => u.a * v)))
    cres := s.cres.map (fun v => u.a * v) }

/-- The baselines and initial peaks in the new units. -/
def Change.heap (u : Change K) (H : Heap K) : Heap K := ⟨fun i => u.part (H.base i), fun i => u.parts (H.peaks i), H.funcs⟩

/-- A sensible change of units: positive factors, none of the parameters is lost, functions keep their identity and the names of their
parameters, and a position is a coordinate. -/
structure Change.Sensible (u : Change K) : Prop where
  a : 0 < u.a
  k : 0 < u.k
  w : ∀ o i, u.w o i ≠ 0
  id : ∀ o, (u.fn o).id = o.id
  npars : ∀ o, (u.fn o).npars = o.npars
  dict : ∀ o, (u.fn o).dict = o.dict
  position : ∀ (o : Owner K) kv, o.dict.find? (fun kv => kv.1 == "position") = some kv → u.w o kv.2 = u.a

/-- `E'` does in the new units what `E` does. -/
structure EnvAlike (u : Change K) (E E' : Env K) : Prop where
  quality : ∀ m b, E'.quality (u.parts m) (b.map u.part) = E.quality m b
  growth : ∀ m b, E'.growth (u.parts m) (b.map u.part) = E.growth m b
  lsq : ∀ m, E'.lsq (u.parts m) = ((E.lsq m).1, u.parts (E.lsq m).2)
  estimate : E'.estimate = E.estimate.map (fun p => p.map u.part)
  clean : ∀ m, E'.clean (u.parts m) = u.parts (E.clean m)
  as : ∀ l, E'.as (u.xs l) = E.as l

/-- `W'` does in the new units what `W` does. -/
structure Alike (u : Change K) (W W' : World K) : Prop where
  env : ∀ c, EnvAlike u (W.env c) (W'.env (u.cluster c))
  prune : ∀ c out, EnvAlike u ((W.pruneEnv c).env out) ((W'.pruneEnv (u.cluster c)).env (u.parts out))
  qual : ∀ c out m k, (W'.pruneEnv (u.cluster c)).qual (u.parts out) (u.parts m) k = (W.pruneEnv c).qual out m k
  pick : ∀ l, W'.pick l = W.pick l
  as : ∀ l, W'.as (u.xs l) = W.as l
  asY : ∀ l, W'.as (u.ys l) = W.as l
  val : ∀ p x, W'.val (u.part p) (u.a * x) = u.k * W.val p x
  sc : ∀ p x s, W'.sc (u.part p) (u.a * x) s = (W.sc p x s).map (u.pars p.owner)
  eqv : ∀ b b', W'.eqv (b.map u.part) (b'.map u.part) = W.eqv b b'
  minpoints : ∀ e f, W'.minpoints e f = W.minpoints e f
  covLsq : ∀ c m, W'.covLsq (u.cluster c) (u.parts m) = ((W.covLsq c m).1, u.parts (W.covLsq c m).2)

/-- The defaults are found alike in both units. -/
structure DefaultsAlike (u : Change K) (D D' : Defaults K) : Prop where
  estimate : ∀ f x y, D'.estimate f (u.xs x) (u.ys y) = D.estimate f x y
  gaussianOverR : ∀ v, D'.gaussianOverR (u.a * v) = D.gaussianOverR v
  zeroBaseline : D'.zeroBaseline = D.zeroBaseline
  aic : D'.aic = D.aic
  noPeaks : D'.noPeaks = D.noPeaks

end Verif.Parts.Units
