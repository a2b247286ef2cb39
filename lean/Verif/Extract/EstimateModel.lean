import Verif.Extract.Model

/-!
# Model of `estimate_peak`, `add_peaks` and `fit_single` (`src/diffpy/srmise/peakextraction.py:732-814, 1367-1408`)
-/

namespace Verif.Parts.Extract

open Verif.Py Verif.PeakList Verif.Parts.ModelCluster

/-- A `PeakExtraction`: its variables, the objects they refer to, the extracted cluster. -/
structure Obj (K : Type) where
  vars : Extraction.PX K
  heap : Heap K
  extracted : Option (Cluster K)

section

variable {K : Type} [Field K] [LinearOrder K]

/-- `self.value()` of a cluster at a point — modelcluster.py:1267-1289. -/
def clusterValue (W : World K) (c : Cluster K) (a : K) : K := valuebl W c.baseline a + valueAt W.val c.model a

/-- Coordinates, unexplained data and uncertainties — peakextraction.py:752-763. -/
def grid (W : World K) (o : Obj K) : Res (List K × List K × List K) :=
  match o.extracted with
  | some c =>
    match c.slice with
    | none => .error .attribute
    | some s => .ok (s.get c.r, List.zipWith (fun a b => b - clusterValue W c a) (s.get c.r) (s.get c.y), s.get c.err)
  | none =>
    match jobOf o.heap o.vars with
    | .error e => .error e
    | .ok J => .ok (J.x, List.zipWith (fun a b => b - W.val J.bl a - valueAt W.val J.ip a) J.x J.y, J.dy)

/-- `dclusters.makeclusters()` — dataclusters.py:231-235; the first argument bounds the number of points taken. -/
def clusterAll : ℕ → Cluster.State K → Res (Cluster.State K)
  | n, s =>
    match Cluster.next s with
    | (.stopIteration, s') => .ok s'
    | (.ok, s') => match n with
      | 0 => .error (.other 3)
      | n + 1 => clusterAll n s'
    | (o, _) => .error (errOf o)

/-- `find_nearest_cluster2(x)[0]` — peakextraction.py:780; indexing None is TypeError. -/
def nearest (s : Cluster.State K) (v : K) : Res ℕ :=
  match Cluster.findNearest2 s v with
  | .error o => .error (errOf o)
  | .ok none => .error .type
  | .ok (some (c, _)) => .ok c

/-- The cluster of the data near `v` — peakextraction.py:765-787. -/
def nearData (W : World K) (cres : K) (x1 y1 dy : List K) (v : K) : Res (List K × List K × List K) :=
  match x1.head?, x1.getLast? with
  | some x0, some xe =>
    if v < x0 ∨ xe < v then .error .value
    else
      match Cluster.mk x1 y1 cres (W.as y1) with
      | .error o => .error (errOf o)
      | .ok dc =>
        match clusterAll x1.length dc with
        | .error e => .error e
        | .ok dc =>
          match nearest dc v with
          | .error e => .error e
          | .ok c => .ok (getSlice x1 (some (Cluster.cut dc c)), getSlice y1 (some (Cluster.cut dc c)),
              getSlice dy (some (Cluster.cut dc c)))
  | _, _ => .error .index

/-- `add_peaks(peaks)` — peakextraction.py:799-814.  (`setvars("initial_peaks")` passes the name as `quiet`; it does
what is wanted because `setvars` ends with `defaultvars`, which has been called already here.) -/
def addPeaks (W : World K) (o : Obj K) (ps : List (Part K)) : Res Unit × Obj K :=
  match o.extracted with
  | some c =>
    match replacepeaks W.as c.model ps 0 0 with
    | (r, m) => (r, { o with extracted := some { c with model := m } })
  | none =>
    match o.vars.initialPeaks with
    | none => (.error .attribute, o)
    | some ip => (.ok (), { o with heap := { o.heap with peaks := Function.update o.heap.peaks ip (sort W.as false pos (o.heap.peaks ip ++ ps)) } })

/-- The cluster that is fitted — peakextraction.py:785-790; `vars` are complete, so the fields read here exist. -/
def nearFit (W : World K) (o : Obj K) (v : K) : Res (List (Part K)) :=
  match o.vars.cres, o.vars.errorMethod, o.vars.pf with
  | some cres, some em, some pf =>
    match grid W o with
    | .error e => .error e
    | .ok (x1, y1, dy) =>
      match nearData W cres x1 y1 dy v with
      | .error e => .error e
      | .ok (xs, ys, es) =>
        match newCluster W ⟨xs, ys, es, o.heap.base 0, [], cres, em, o.heap.funcs pf⟩ [] none xs ys es none with
        | .error e => .error e
        | .ok mc => match fitted W {} mc with
          | .error e => .error e
          | .ok mc => .ok mc.model
  | _, _, _ => .error .type

/-- `estimate_peak(x, add)` — peakextraction.py:732-797. -/
def estimatePeak (W : World K) (D : Extraction.Defaults K) (o : Obj K) (v : K) (add : Bool) :
    Res (Option (Part K)) × Obj K :=
  match Extraction.defaultvars D o.vars with
  | (.error e, s) => (.error e, { o with vars := s })
  | (.ok (), s) =>
    let o := { o with vars := s }
    match nearFit W o v with
    | .error e => (.error e, o)
    | .ok [] => (.ok none, o)
    | .ok (p :: ps) =>
      if add then
        match addPeaks W o (p :: ps) with
        | (.error e, o') => (.error e, o')
        | (.ok (), o') => (.ok (some p), o')
      else (.ok (some p), o)

/-- What `fit_single` lets the fit do to the objects behind `initial_peaks` and `baseline` — modelcluster.py:1061-1143:
the cluster is made of the very list and the very baseline, so the list ends as the fit leaves that list object (see
`ModelCluster.fit`), and the baseline, if it takes part, with the parameters of the optimiser. -/
def touched (W : World K) (H : Heap K) (ip bl : ℕ) (opts : Opts) (c : Cluster K) : Heap K :=
  { H with
    peaks := Function.update H.peaks ip (ModelCluster.fit ((final W).env c) opts c).2.2
    base := if c.neverFit = true ∨ c.model = [] then H.base else Function.update H.base bl ((launch ((final W).env c) opts c).2.2.getD (H.base bl)) }

/-- `fit_single()` — peakextraction.py:1367-1408. -/
def fitSingle (W : World K) (D : Extraction.Defaults K) (o : Obj K) : Res Unit × Obj K :=
  match Extraction.defaultvars D o.vars with
  | (.error e, s) => (.error e, { o with vars := s, extracted := none })
  | (.ok (), s) =>
    let o : Obj K := { o with vars := s, extracted := none }
    match jobOf o.heap s, s.initialPeaks, s.baseline with
    | .ok J, some ip, some (.inst bl) =>
      match newCluster W J J.ip (some J.bl) J.x J.y J.dy none with
      | .error e => (.error e, o)
      | .ok c =>
        let o := { o with heap := touched W o.heap ip bl { fitbaseline := true, estimate := false } c }
        match fitted (final W) { fitbaseline := true, estimate := false } c with
        | .error e => (.error e, o)
        | .ok c => (.ok (), { o with extracted := some c })
    | .error e, _, _ => (.error e, o)
    | .ok _, _, _ => (.error .type, o)

end

end Verif.Parts.Extract
