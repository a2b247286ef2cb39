import Verif.Extract.TotalProps
import Verif.Extract.Tame
import Verif.ModelCluster.ValueProps

/-!
# The numerics of the search, as the code computes them

`World` (Extract/Model.lean) leaves the numerics of `extract_single` open.  Here they are those of the code: the
quality is AIC or AICc of the value of the cluster on its data, least squares is `ModelParts.fit` on any optimiser,
the clean-up is `cleanfit`, an estimated peak is the first peak function at the parameters it estimates.
Still open are: the optimiser, `argsort`, the values of the functions at a point, `estimate_parameters`,
`scale_at`.  Numbers are exact: there is no NaN.
-/

set_option linter.unusedSectionVars false

namespace Verif.Parts.Extract

open Verif.Py Verif.PeakList Verif.Parts.ModelCluster

variable {K : Type} [Field K] [LinearOrder K]

/-- What is left open. -/
structure Numerics (K : Type) where
  /-- `argsort` of positions. -/
  as : List K → List ℕ
  /-- the index `argsort()[-1]` of qualities. -/
  pick : List (Evaluator.Ev K) → ℕ
  /-- the cast to an integral dtype. -/
  trunc : K → K
  /-- value of a part at a point. -/
  val : Part K → K → K
  /-- `scale_at`. -/
  sc : Part K → K → K → Res (List K)
  /-- the class that an `error_method` is. -/
  kind : ℕ → Evaluator.Kind
  /-- the peak function with the given identity. -/
  func : ℕ → Owner K
  /-- `estimate_parameters(r, y)`. -/
  guess : Owner K → List K → List K → Res (List K)
  /-- the calls of `leastsq` for the parts on the data of the cluster. -/
  opt : Cluster K → List (Part K) → Lsq K × Lsq K

/-- `r_cluster` and the like — modelcluster.py:894-899. -/
def inSlice (c : Cluster K) (l : List K) : List K :=
  match c.slice with
  | none => []
  | some s => s.get l

/-- `type(error_method())`. -/
def methodName : Evaluator.Kind → String
  | .aic => "AIC"
  | .aicc => "AICc"

/-- What the evaluator reads of the cluster `c` with the peaks `m` and the baseline `b`: as `fitOf`, with the value of
the parts at each point of the cluster. -/
def seenFit (N : Numerics K) (c : Cluster K) (m : List (Part K)) (b : Option (Part K)) : Evaluator.Fit K :=
  ⟨npars m false, npars m true, (inSlice c c.r).map (curve N.val (b.toList ++ m)), inSlice c c.y, inSlice c c.err⟩

/-- `quality(kshift=k)` — modelcluster.py:1319-1346, aic.py:53-90, aicc.py:52-90; see `c95_quality`.  For a negative
number of parameters the evaluator raises: there this is an arbitrary number (`prune` never asks,
`c95_shift`). -/
def rate (N : Numerics K) (c : Cluster K) (m : List (Part K)) (b : Option (Part K)) (k : ℤ) : Evaluator.Ev K :=
  match Evaluator.evaluate (N.kind c.method) (Evaluator.new (N.kind c.method)) (seenFit N c m b) false k with
  | .ok a => a
  | .error _ => ⟨methodName (N.kind c.method), false, some 0, none⟩

/-- `min([p.npars for p in self.peak_funcs])` — modelcluster.py:1133, 1252 (`peak_funcs` is not empty). -/
def leastNpars (N : Numerics K) (fs : List ℕ) : ℕ := ((fs.map (fun f => (N.func f).npars)).min?).getD 0

/-- `new_qual.growth_justified(self, min_npars)` — modelcluster.py:1134, aic.py:128-171. -/
def grows (N : Numerics K) (c : Cluster K) (m : List (Part K)) (b : Option (Part K)) : Bool :=
  (Evaluator.growthJustified (N.kind c.method) (rate N c m b 0) (seenFit N c m b) (leastNpars N c.funcs)).1

/-- `max(p.value(r_cluster) - error_cluster) < 0` — modelcluster.py:1189. -/
def feeble (N : Numerics K) (c : Cluster K) (p : Part K) : Bool :=
  (List.zipWith (fun x e => N.val p x - e) (inSlice c c.r) (inSlice c c.err)).all (fun v => decide (v < 0))

/-- `estimatepeak` up to `replacepeaks` — modelcluster.py:999-1003, base.py:64-93 (`actualize`): the first peak
function, at the parameters it estimates from the data minus the baseline, all of them free.  Without a peak function
(IndexError) this is arbitrary: `defaultvars` makes one. -/
def guessed (N : Numerics K) (c : Cluster K) : Res (Option (Part K)) :=
  match c.funcs with
  | [] => .error .estimation
  | f :: _ => do
    let pars ← N.guess (N.func f) (inSlice c c.r)
      (List.zipWith (fun x y => y - curve N.val c.baseline.toList x) (inSlice c c.r) (inSlice c c.y))
    let pars ← (N.func f).transform pars (some "internal") (some "internal")
    let p ← Part.new (N.func f) pars none true false false
    return some p

/-- The numerics of `fit` on a cluster.  `ModelParts.fit` is given all data of the cluster, not those of its slice, and compares the
number of free parameters to the number of all these — modelcluster.py:1072-1080, modelparts.py:97-105. -/
def codeEnv (N : Numerics K) (c : Cluster K) : Env K where
  quality m b := rate N c m b 0
  growth m b := grows N c m b
  lsq := lsqOf ⟨fun _ => false, N.trunc⟩ c.r.length false (fun m => (N.opt c m).1) (fun m => (N.opt c m).2)
  estimate := guessed N c
  clean m := (cleanfit (fun _ => false) ((inSlice c c.r).headD 0) ((inSlice c c.r).getLastD 0) (feeble N c) m).2
  as := N.as

/-- The auxiliary cluster of `prune` — modelcluster.py:1478-1488 — with the data that are left without the peaks `out` —
modelcluster.py:1556-1568. -/
def pruneCluster (N : Numerics K) (c : Cluster K) (out : List (Part K)) : Cluster K :=
  { c with model := [], baseline := none, r := inSlice c c.r, err := inSlice c c.err, lastFit := 0, neverFit := false
           y := List.zipWith (fun x y => y - curve N.val (c.baseline.toList ++ out) x) (inSlice c c.r) (inSlice c c.y)
           slice := some ⟨none, (inSlice c c.r).length⟩ }

/-- The numerics of `fit` on the auxiliary cluster of `prune`, which has no baseline. -/
def auxEnv (N : Numerics K) (c : Cluster K) (out : List (Part K)) : Env K :=
  { codeEnv N (pruneCluster N c out) with
    quality := fun m _ => rate N (pruneCluster N c out) m none 0
    growth := fun m _ => grows N (pruneCluster N c out) m none }

/-- `m1.baseline == m2.baseline` — modelcluster.py:812, modelparts.py:754-764.  (The same function has the same parameter dictionary: in
the model an identity alone would not say so.) -/
def sameBase : Option (Part K) → Option (Part K) → Bool
  | none, none => true
  | some a, some b => Part.beq a b && decide (a.owner.dict = b.owner.dict)
  | _, _ => false

/-- The numerics of the search. -/
def codeWorld (N : Numerics K) : World K where
  env := codeEnv N
  pruneEnv c := ⟨auxEnv N c, fun out m k => rate N (pruneCluster N c out) m none k⟩
  pick := N.pick
  as := N.as
  val := N.val
  sc := N.sc
  eqv := sameBase
  func := N.func
  minpoints method f := (Evaluator.minpoints (N.kind method) ((N.func f).npars : ℤ)).toNat
  covLsq c := lsqOf ⟨fun _ => false, N.trunc⟩ c.r.length true (fun m => (N.opt c m).1) (fun m => (N.opt c m).2)

end Verif.Parts.Extract
