import Verif.ModelCluster.Greedy
import Verif.Cluster.Model
import Verif.Extraction.Model

/-!
# Model of `PeakExtraction.extract_single` (`src/diffpy/srmise/peakextraction.py:816-1365`)

The whole algorithm: clustering, fits, boundary recursion, joining with both variants, initial peaks,
pruning, the recursion itself.  The numerics are in `World`: arbitrary functions of the cluster they are
asked about.  Not modelled: log messages and the tracer (see `Srmiselog`), the covariance that is returned.
Nothing of the intermediate state survives an exception (`extracted` was cleared), so the steps are in the
exception monad.
-/

namespace Verif.Parts.Extract

open Verif.Py Verif.PeakList Verif.Parts.ModelCluster

/-- The numerics: what `fit` needs for the data of a cluster, what `prune` needs for it, `argsort`, value and
`scale_at` of a peak, comparison of baselines, the choice of the best quality, `minpoints` of the evaluator
for each peak function. -/
structure World (K : Type) where
  env : Cluster K → Env K
  pruneEnv : Cluster K → PruneEnv K
  pick : List (Evaluator.Ev K) → ℕ
  as : List K → List ℕ
  val : Part K → K → K
  sc : Part K → K → K → Res (List K)
  eqv : Option (Part K) → Option (Part K) → Bool
  minpoints : ℕ → ℕ → ℕ
  /-- The peak function with the given identity. -/
  func : ℕ → Owner K
  /-- The fit when a covariance is asked for — modelparts.py:205-218: it may raise where the other does not. -/
  covLsq : Cluster K → List (Part K) → Res Unit × List (Part K) := fun c => (env c).lsq

/-- The objects that the extraction variables refer to (`Extraction.PX` has their identities). -/
structure Heap (K : Type) where
  base : ℕ → Part K
  peaks : ℕ → List (Part K)
  funcs : ℕ → List ℕ

/-- What `extract_single` works on after `defaultvars` — peakextraction.py:832-844, 854: the data in the
selected range, the baseline, a copy of the initial peaks, `cres`, `error_method`, `pf`. -/
structure Job (K : Type) where
  x : List K
  y : List K
  dy : List K
  bl : Part K
  ip : List (Part K)
  cres : K
  method : ℕ
  funcs : List ℕ

section

variable {K : Type} [Field K] [LinearOrder K]

/-- `self.valuebl(r)` at a point — modelcluster.py:1291-1313. -/
def valuebl (W : World K) (b : Option (Part K)) (x : K) : K :=
  match b with
  | none => 0
  | some p => W.val p x

/-- `y_data - valuebl(r_data) - y_error` — modelcluster.py:908-909. -/
def excess (W : World K) (c : Cluster K) : List K :=
  List.zipWith (fun (p : K × K) e => p.2 - valuebl W c.baseline p.1 - e) (c.r.zip c.y) c.err

/-- `ModelCluster(model, baseline, r, y, err, slice, method, funcs)` — modelcluster.py:464-508.  All clusters
that are ever joined are made from the same arrays, so one number serves as the identity of the arrays. -/
def newCluster (W : World K) (J : Job K) (model : List (Part K)) (bl : Option (Part K)) (r y err : List K)
    (s : Option Slice) : Res (Cluster K) :=
  let c : Cluster K := ⟨model, bl, r, y, err, 0, 0, 0, J.method, J.funcs, none, 0, false⟩
  match changeSlice (excess W c) c (s.getD ⟨none, r.length⟩) with
  | (.error e, _) => .error e
  | (.ok (), c') => .ok c'

/-- `change_slice`, as a step that may raise. -/
def reslice (W : World K) (c : Cluster K) (s : ℕ × ℕ) : Res (Cluster K) :=
  match changeSlice (excess W c) c ⟨some s.1, s.2⟩ with
  | (.error e, _) => .error e
  | (.ok (), c') => .ok c'

/-- `ModelCluster(c)`. -/
def copyOf (W : World K) (c : Cluster K) : Res (Cluster K) :=
  match copy (excess W c) c with
  | (.error e, _) => .error e
  | (.ok (), c') => .ok c'

/-- `c.fit(...)`. -/
def fitted (W : World K) (o : Opts) (c : Cluster K) : Res (Cluster K) :=
  match ModelCluster.fit (W.env c) o c with
  | (.error e, _, _) => .error e
  | (.ok _, c', _) => .ok c'

/-- The numerics when a `ModelCovariance` is passed to `fit`. -/
def final (W : World K) : World K := { W with env := fun c => { W.env c with lsq := W.covLsq c } }

/-- `c.contingent_fit(minpoints, 2.0)`. -/
def contingent (W : World K) (minpoints : ℕ) (c : Cluster K) : Res (Cluster K) :=
  match contingentFit (W.env c) c minpoints 2 with
  | (.error e, _, _) => .error e
  | (.ok _, c', _) => .ok c'

/-- `c.reduce_to(x, y)`. -/
def reduced (W : World K) (c : Cluster K) (x y : K) : Res (Cluster K) :=
  match reduceTo (W.env c) W.sc W.val (valuebl W c.baseline x) c x y with
  | (.error e, _) => .error e
  | (.ok _, c') => .ok c'

/-- `c.augment(rec)`. -/
def augmented (W : World K) (c : Cluster K) (source : List (Part K)) : Res (Cluster K) :=
  match augment (W.env c) W.pick c source with
  | (.error e, _) => .error e
  | (.ok (), c') => .ok c'

/-- `c.model = other; c.replacepeaks(new)` — peakextraction.py:1078-1079, 1299-1308. -/
def withPeaks (W : World K) (c : Cluster K) (other new : List (Part K)) : Res (Cluster K) :=
  match replacepeaks W.as other new 0 0 with
  | (.error e, _) => .error e
  | (.ok (), m) => .ok { c with model := m }

/-- `c.prune()`; the auxiliary cluster — modelcluster.py:1478-1488. -/
def pruned (W : World K) (J : Job K) (c : Cluster K) : Res (Cluster K) :=
  if c.model = [] then .ok c
  else match c.slice with
    | none => .error .attribute
    | some s =>
      let r := s.get c.r
      let y := List.zipWith (fun a b => b - valuebl W c.baseline a) r (s.get c.y)
      match newCluster W J [] none r y (s.get c.err) none with
      | .error e => .error e
      | .ok mc =>
        match prune (W.pruneEnv c) W.pick mc c.model with
        | (.error e, _) => .error e
        | (.ok (), m) => .ok { c with model := m }

/-! ### The neighbourhood of a border -/

/-- The near and the other peaks, and the data of the "interpeak range" without the other peaks. -/
structure Hood (K : Type) where
  near : List (Part K)
  other : List (Part K)
  x : List K
  y : List K
  err : List K

/-- peakextraction.py:965-1025, 1118-1178; `x`, `y`, `dy` are the data of the whole call.  (The positions of
the peaks of a cluster are taken to be sorted, as `searchsorted` requires.) -/
def hood (W : World K) (x y dy : List K) (c : Cluster K) (border : K) : Res (Hood K) :=
  match c.slice with
  | none => .error .attribute
  | some s =>
    let ind := s.indices x.length
    let ps := c.model.map pos
    let p := Extraction.pivot ps border
    let near := (Extraction.nearIdx ps.length p).filterMap (fun i => c.model[i]?)
    let other := (Extraction.otherIdx ps.length p).filterMap (fun i => c.model[i]?)
    let sl := some (Extraction.leftData x ps ind.1 p, Extraction.rightData x ps ind.2 ps.length p + 1)
    .ok ⟨near, other, getSlice x sl,
      List.zipWith (fun a b => b - valueAt W.val other a) (getSlice x sl) (getSlice y sl), getSlice dy sl⟩

/-! ### Recursion -/

/-- A recursive search of the data `(r, y, error)`; `none` at depth 3, where there is none. -/
abbrev Deeper (K : Type) := Option (List K → List K → List K → Res (Cluster K))

/-- `adj_y - model.value(adj_x)` — peakextraction.py:1029, 1206, 1260. -/
def residual (W : World K) (c : Cluster K) : List K :=
  List.zipWith (fun a b => b - valueAt W.val c.model a) c.r c.y

/-- Search the residual if there seems to be anything to find, and add what is found —
peakextraction.py:1027-1075, 1204-1251, 1258-1296.  The quick check uses a cluster without baseline.  `must` is
`len(near_peaks) > 0`. -/
def deepen (W : World K) (J : Job K) (rec : Deeper K) (c : Cluster K) (must : Bool) : Res (Cluster K) :=
  match newCluster W J [] none c.r (residual W c) c.err none with
  | .error e => .error e
  | .ok chk =>
    if must && (W.env chk).growth [] none then
      match rec with
      | none => .ok c
      | some f =>
        match f c.r (residual W c) c.err with
        | .error e => .error e
        | .ok found => augmented W c found.model
    else .ok c

/-! ### A full boundary -/

/-- Boundary recursion — peakextraction.py:955-1096.  `j` is `lastcluster_idx`, which the code uses as the index
of the border point. -/
def boundary (W : World K) (J : Job K) (rec : Deeper K) (y : List K) (c : Cluster K) (j : ℕ) : Res (Cluster K) := do
  let full ← copyOf W c
  let full ← fitted W { justify := true } full
  let border ← (match J.x[j]? with | some b => .ok b | none => .error .index : Res K)
  let h ← hood W J.x y J.dy full border
  let adj ← newCluster W J h.near (some J.bl) h.x h.y h.err (some ⟨none, h.x.length⟩)
  let adj ← deepen W J rec adj (decide (0 < h.near.length))
  let full ← withPeaks W full h.other adj.model
  fitted W { justify := true } full

/-! ### Joining -/

/-- `l[i]`. -/
def item {α : Type} (l : List α) (i : ℕ) : Res α :=
  match l[i]? with
  | some a => .ok a
  | none => .error .index

/-- The model that is reduced at the border — peakextraction.py:1183-1251: only with a peak on either side. -/
def variant1 (W : World K) (J : Job K) (rec : Deeper K) (h : Hood K) (bx by_ : K) : Res (Cluster K) := do
  let a ← newCluster W J h.near (some J.bl) h.x h.y h.err (some ⟨none, h.x.length⟩)
  if h.near.length = 2 then do
    let a ← reduced W a bx by_
    deepen W J rec a true
  else pure a

/-- The model that is fitted beforehand — peakextraction.py:1192-1201, 1253-1296. -/
def variant2 (W : World K) (J : Job K) (rec : Deeper K) (h : Hood K) : Res (Cluster K) := do
  let a ← newCluster W J h.near (some J.bl) h.x h.y h.err (some ⟨none, h.x.length⟩)
  let a ← fitted W { justify := true } a
  deepen W J rec a (decide (0 < h.near.length))

/-- The better variant — peakextraction.py:1301-1308. -/
def better (W : World K) (a1 a2 : Cluster K) : Res (Cluster K) :=
  match Evaluator.gt ((W.env a1).quality a1.model a1.baseline) ((W.env a2).quality a2.model a2.baseline) with
  | .error _ => .error (.other 2)
  | .ok true => .ok a1
  | .ok false => .ok a2

/-- Join two neighbouring clusters with the rows `cl`, `cr` — peakextraction.py:1106-1310.  (The copy
`rej_cluster` is made, its peaks only serve the log.) -/
def joined (W : World K) (J : Job K) (rec : Deeper K) (y : List K) (cl cr : ℕ × ℕ) (m1 m2 : Cluster K) :
    Res (Cluster K) := do
  let new ← joinAdjacent W.as W.eqv W.sc W.val (excess W m1) m1 m2
  let xl ← item J.x cl.2
  let xr ← item J.x cr.1
  let yl ← item y cl.2
  let yr ← item y cr.1
  let h ← hood W J.x y J.dy new ((xl + xr) / 2)
  let a1 ← variant1 W J rec h ((xl + xr) / 2) ((yl + yr) / 2)
  let a2 ← variant2 W J rec h
  let _ ← copyOf W { new with model := h.other }
  let best ← better W a1 a2
  let new ← withPeaks W new h.other best.model
  fitted W { justify := true } new

/-- `for idx in adjacent[-1:0:-1]` — peakextraction.py:1099-1332; `rows` is `step.clusters`. -/
def joinLoop (W : World K) (J : Job K) (rec : Deeper K) (y : List K) (rows : List (ℕ × ℕ)) :
    List ℕ → List (Cluster K) → Res (List (Cluster K))
  | [], ms => .ok ms
  | idx :: rest, ms => do
    let m1 ← item ms (idx - 1)
    let m2 ← item ms idx
    let new ← joined W J rec y (Cluster.row rows (idx - 1)) (Cluster.row rows idx) m1 m2
    joinLoop W J rec y rows rest ((ms.set (idx - 1) new).eraseIdx idx)

/-! ### The main loop -/

/-- The exception classes of `DataClusters`. -/
def errOf : Cluster.Outcome → Err
  | .valueError => .value
  | .indexError => .index
  | .typeError => .type
  | _ => .other 1

/-- Change the element at `i` — `mclusters[i].method(...)`. -/
def atIndex (ms : List (Cluster K)) (i : ℕ) (f : Cluster K → Res (Cluster K)) : Res (List (Cluster K)) :=
  match ms[i]? with
  | none => .error .index
  | some c => match f c with
    | .error e => .error e
    | .ok c' => .ok (ms.set i c')

/-- `for a in adjacent: mclusters[a].fit(justify=True)` — peakextraction.py:927-928. -/
def fitAll (W : World K) : List ℕ → List (Cluster K) → Res (List (Cluster K))
  | [], ms => .ok ms
  | a :: rest, ms =>
    match atIndex ms a (fitted W { justify := true }) with
    | .error e => .error e
    | .ok ms' => fitAll W rest ms'

/-- `Update mclusters` — peakextraction.py:893-911. -/
def update (W : World K) (J : Job K) (y : List K) (s : Cluster.State K) (last : ℕ) (ms : List (Cluster K)) :
    Res (List (Cluster K)) :=
  if ms.length < s.clusters.length then
    match newCluster W J [] (some J.bl) J.x y J.dy (some ⟨some (Cluster.cut s last).1, (Cluster.cut s last).2⟩) with
    | .error e => .error e
    | .ok c => .ok (ms.insertIdx last c)
  else atIndex ms last (fun c => reslice W c (Cluster.cut s last))

/-- Boundary recursion when the point just added is the first or the last one — peakextraction.py:955. -/
def atBoundary (W : World K) (J : Job K) (rec : Deeper K) (y : List K) (s : Cluster.State K) (last : ℕ)
    (ms : List (Cluster K)) : Res (List (Cluster K)) :=
  if s.lastpoint = some 0 ∨ s.lastpoint = some (J.x.length - 1) then
    atIndex ms last (fun c => boundary W J rec y c last)
  else .ok ms

/-- The body of the main loop after the next point has been clustered — peakextraction.py:880-1336.
AssertionError is `other 4`. -/
def iteration (W : World K) (J : Job K) (rec : Deeper K) (y : List K) (minpoints : ℕ) (s : Cluster.State K)
    (ms : List (Cluster K)) : Res (Cluster.State K × List (Cluster K)) := do
  let last := s.lastcluster.getD 0
  let ms ← update W J y s last ms
  let adj ← (match Cluster.findAdjacent s with | .error o => .error (errOf o) | .ok a => .ok a : Res (List (List ℕ)))
  let adjacent := adj.flatten
  if s.clusters.length ≠ ms.length then .error (.other 4)
  else if 3 < adjacent.length then .error (.other 4)
  else do
    let ms ← fitAll W adjacent ms
    let ms ← atIndex ms last (contingent W minpoints)
    let ms ← atBoundary W J rec y s last ms
    let ms ← joinLoop W J rec y s.clusters adjacent.tail.reverse ms
    if 0 < adjacent.length then
      match Cluster.combine s [adjacent] with
      | (.ok, s') => pure (s', ms)
      | (o, _) => .error (errOf o)
    else pure (s, ms)

/-- The main loop — peakextraction.py:877-1338.  The first argument bounds the number of iterations; running
out of it would be `other 3` (it never does: `c68_loop_bound`). -/
def mainLoop (W : World K) (J : Job K) (rec : Deeper K) (y : List K) (minpoints : ℕ) :
    ℕ → Cluster.State K → List (Cluster K) → Res (List (Cluster K))
  | 0, _, _ => .error (.other 3)
  | n + 1, s, ms =>
    match Cluster.next s with
    | (.stopIteration, _) => .ok ms
    | (.ok, s') =>
      match iteration W J rec y minpoints s' ms with
      | .error e => .error e
      | .ok (s'', ms') => mainLoop W J rec y minpoints n s'' ms'
    | (o, _) => .error (errOf o)

/-- `c.addexternalpeaks(ip)` — modelcluster.py:517-531. -/
def addexternal (W : World K) (c : Cluster K) (ip : List (Part K)) : Res (Cluster K) :=
  match withPeaks W c c.model ip with
  | .error e => .error e
  | .ok c' => .ok { c' with y := List.zipWith (fun a b => b + valueAt W.val ip a) c'.r c'.y }

/-- `max([...])`; ValueError on an empty list — peakextraction.py:874. -/
def maxOf (l : List ℕ) : Res ℕ :=
  match l.max? with
  | none => .error .value
  | some m => .ok m

/-- After the main loop — peakextraction.py:1343-1359. -/
def finish (W : World K) (J : Job K) (top : Bool) (c : Cluster K) : Res (Cluster K) := do
  let c ← addexternal W c J.ip
  let c ← pruned W J c
  if top then fitted (final W) { fitbaseline := true } c else pure c

/-- `extract_single` between `defaultvars` and the assignment of `extracted` — peakextraction.py:844-1359;
`bound` is the bound on the iterations of the main loop. -/
def searchN (W : World K) (J : Job K) (rec : Deeper K) (top : Bool) (bound : ℕ) : Res (Cluster K) := do
  let y0 := List.zipWith (fun a b => b - W.val J.bl a - valueAt W.val J.ip a) J.x J.y
  let y := List.zipWith (fun a b => b - valueAt W.val J.ip a) J.x J.y
  let dc ← (match Cluster.mk J.x y0 J.cres (W.as y0) with
    | .error o => .error (errOf o) | .ok s => .ok s : Res (Cluster.State K))
  let first ← newCluster W J [] (some J.bl) J.x y J.dy (some ⟨some (Cluster.cut dc 0).1, (Cluster.cut dc 0).2⟩)
  let mp ← maxOf (J.funcs.map (W.minpoints J.method))
  let ms ← mainLoop W J rec y mp bound dc [first]
  let c ← item ms 0
  finish W J top c

/-- `searchN` with as many iterations as there are points; more would change nothing (`c68_loop_bound`). -/
def search (W : World K) (J : Job K) (rec : Deeper K) (top : Bool) : Res (Cluster K) :=
  searchN W J rec top J.x.length

/-- The data and objects that the extraction variables stand for after `defaultvars` —
peakextraction.py:832-844.  Slicing a number (a scalar `effective_dy`, which stays when it is not positive) is
TypeError. -/
def jobOf (H : Heap K) (s : Extraction.PX K) : Res (Job K) :=
  match s.x, s.y, s.effdy, s.rng, s.baseline, s.initialPeaks, s.cres, s.errorMethod, s.pf with
  | some x, some y, .array e, some (some a, some b), some (.inst bl), some ip, some cres, some em, some pf =>
    match Extraction.getrangeslice x a b with
    | .error e => .error e
    | .ok (lo, hi) =>
      let sl := some (lo, hi.toNat)
      .ok ⟨getSlice x sl, getSlice y sl, getSlice e sl, H.base bl, H.peaks ip, cres, em, H.funcs pf⟩
  | _, _, _, _, _, _, _, _, _ => .error .type

/-- The recursive search on the data `(r, y, error)` — peakextraction.py:1057-1067, 1232-1242, 1278-1288: a new
`PeakExtraction` with the same baseline, `cres`, `pf` and `error_method`, but no initial peaks and no range. -/
def subSearch (D : Extraction.Defaults K) (s : Extraction.PX K) (r y e : List K) : Res (Extraction.PX K) :=
  match Extraction.setdata {} r y none (some e) with
  | (.error e, _) => .error e
  | (.ok (), t) =>
    match Extraction.setvars D t
        [.baseline s.baseline, .cres s.cres, .pf s.pf, .error_method s.errorMethod] with
    | (.error e, _) => .error e
    | (.ok (), t) => .ok t

/-- `extract_single(recursion_depth)` — peakextraction.py:816-1365: the new `extracted`.  The first argument
bounds the nesting of calls; exceeding it would be `other 5` (it never is: `c71_depth`). -/
def extractSingle (W : World K) (H : Heap K) (D : Extraction.Defaults K) :
    ℕ → ℕ → Extraction.PX K → Res (Cluster K)
  | 0, _, _ => .error (.other 5)
  | n + 1, depth, s =>
    match Extraction.defaultvars D s with
    | (.error e, _) => .error e
    | (.ok (), s) =>
      match jobOf H s with
      | .error e => .error e
      | .ok J =>
        search W J
          (if depth < 3 then some (fun r y e =>
            match subSearch D s r y e with
            | .error e => .error e
            | .ok t => extractSingle W H D n (depth + 1) t)
          else none)
          (decide (depth = 1))

end

end Verif.Parts.Extract
