import Mathlib.Algebra.Order.Field.Basic
import Mathlib.Data.List.MinMax
import Mathlib.Analysis.SpecialFunctions.Exp

/-!
# Model of `src/diffpy/srmise/modelevaluators/`

Numbers are elements of any linearly ordered field `K` (ℝ where `exp` is used).  A model cluster
is seen through what the evaluators read from it.
-/

namespace Verif.Evaluator

/-- Exceptions raised by the evaluators: `AssertionError` of the comparisons, and
`SrMiseModelEvaluatorError`. -/
inductive Err
  | assertion
  | modelEvaluator
  deriving DecidableEq, Repr

/-- `ModelEvaluator` — modelevaluators/base.py:49-71. `stat = none` is Python's `None`. -/
structure Ev (K : Type) where
  method : String
  higherIsBetter : Bool
  stat : Option K
  chisq : Option K

/-- What an evaluator reads from a `ModelCluster`: `fit.model.npars(count_fixed=False/True)`,
`fit.value()`, `fit.y_cluster`, `fit.error_cluster`; `fit.size` is `len(r_cluster)`, the common
length. -/
structure Fit (K : Type) where
  nfree : ℕ
  nall : ℕ
  value : List K
  y : List K
  error : List K

/-- `fit.size` — modelcluster.py:899. -/
def Fit.size {K : Type} (f : Fit K) : ℕ := f.y.length

variable {K : Type} [Field K] [LinearOrder K]

/-- The two assertions that open every comparison — base.py:76-77 (repeated in each method). -/
def guard2 (a b : Ev K) : Except Err (K × K) :=
  if a.method ≠ b.method then .error .assertion
  else match a.stat, b.stat with
    | some s, some t => .ok (s, t)
    | _, _ => .error .assertion

/-- `__lt__` — base.py:73-82. -/
def lt (a b : Ev K) : Except Err Bool := do
  let (s, t) ← guard2 a b
  return if a.higherIsBetter then decide (s < t) else decide (t < s)

/-- `__le__` — base.py:84-93. -/
def le (a b : Ev K) : Except Err Bool := do
  let (s, t) ← guard2 a b
  return if a.higherIsBetter then decide (s ≤ t) else decide (t ≤ s)

/-- `__eq__` — base.py:95-101. -/
def eq (a b : Ev K) : Except Err Bool := do
  let (s, t) ← guard2 a b
  return decide (s = t)

/-- `__ne__` — base.py:103-109. -/
def ne (a b : Ev K) : Except Err Bool := do
  let (s, t) ← guard2 a b
  return decide (s ≠ t)

/-- `__gt__` — base.py:111-120. -/
def gt (a b : Ev K) : Except Err Bool := do
  let (s, t) ← guard2 a b
  return if a.higherIsBetter then decide (s > t) else decide (t > s)

/-- `__ge__` — base.py:122-131. -/
def ge (a b : Ev K) : Except Err Bool := do
  let (s, t) ← guard2 a b
  return if a.higherIsBetter then decide (s ≥ t) else decide (t ≥ s)

/-- `chi_squared` — base.py:133-146: `np.sum((expected - observed)**2 / error**2)` (the arrays have
equal lengths; `zipWith` stops at the shortest). -/
def chiSquared : List K → List K → List K → K
  | e :: es, o :: os, d :: ds => (e - o) ^ 2 / d ^ 2 + chiSquared es os ds
  | _, _, _ => 0

/-- `chisq` is computed once and then reused — aic.py:85-86, aicc.py:85-86 and in
`growth_justified`. -/
def chisqOf (a : Ev K) (f : Fit K) : K :=
  match a.chisq with
  | some c => c
  | none => chiSquared f.value f.y f.error

/-- Which criterion. -/
inductive Kind
  | aic
  | aicc
  deriving DecidableEq, Repr

/-- `AIC()` / `AICc()` — aic.py:48-51, aicc.py:47-50. -/
def new : Kind → Ev K
  | .aic => ⟨"AIC", false, none, none⟩
  | .aicc => ⟨"AICc", false, none, none⟩

/-- `minpoints` — aic.py:92-106 and aicc.py:92-108. -/
def minpoints : Kind → ℤ → ℤ
  | .aic, _ => 1
  | .aicc, k => k + 2

/-- `parpenalty` — aic.py:108-126 (`2k`) and aicc.py:110-131 (`2k + 2k(k+1)/(n-k-1)`);
`fudgefactor` is 1. -/
def parpenalty : Kind → ℤ → ℤ → K
  | .aic, k, _ => (2 * k) * 1
  | .aicc, k, n => (2 * k + (2 * k * (k + 1)) / (n - k - 1)) * 1

/-- `evaluate` — aic.py:53-90, aicc.py:52-90.  Returns the updated evaluator (its `stat` is the
return value). -/
def evaluate (kind : Kind) (a : Ev K) (f : Fit K) (countFixed : Bool) (kshift : ℤ) :
    Except Err (Ev K) :=
  let k : ℤ := (if countFixed then f.nall else f.nfree : ℕ) + kshift
  if k < 0 then .error .modelEvaluator
  else
    let n : ℤ := if (f.size : ℤ) < minpoints kind k then minpoints kind k else f.size
    let c := chisqOf a f
    .ok { a with chisq := some c, stat := some (c + parpenalty kind k n) }

/-- `growth_justified` — aic.py:128-171, aicc.py:133-173. -/
def growthJustified (kind : Kind) (a : Ev K) (f : Fit K) (kPrime : ℤ) : Bool × Ev K :=
  let c := chisqOf a f
  let a' := { a with chisq := some c }
  let kActual : ℤ := f.nfree
  let kTest : ℤ := kActual + kPrime
  if (f.size : ℤ) < minpoints kind kTest then (false, a')
  else
    let n : ℤ := if (f.size : ℤ) < minpoints kind kActual then minpoints kind kActual else f.size
    let penalty : K := parpenalty kind kTest n - parpenalty kind kActual n
    (decide (penalty < c), a')

/-! ### Akaike weights, over ℝ -/

/-- `akaikeweights` — aic.py:173-189, aicc.py:175-191, on the list of `stat`s.  `min` of an empty
sequence raises ValueError, hence `none`. -/
noncomputable def akaikeWeights (stats : List ℝ) : Option (List ℝ) :=
  match stats with
  | [] => none
  | s :: rest =>
    let m := rest.foldl min s
    some ((s :: rest).map (fun t => Real.exp (-(t - m) / 2)))

/-- `akaikeprobs` — aic.py:191-206, aicc.py:193-208. -/
noncomputable def akaikeProbs (stats : List ℝ) : Option (List ℝ) :=
  match akaikeWeights stats with
  | none => none
  | some w => some (w.map (fun v => v / w.sum))

end Verif.Evaluator
