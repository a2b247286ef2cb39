import Verif.PdfExtract.Cov

/-!
# Model of what `extract_single` and `PDFPeakExtraction.extract` do to the objects of the caller
(`src/diffpy/srmise/peakextraction.py:816-1365`, `src/diffpy/srmise/pdfpeakextraction.py:334-556`)

`initial_peaks` is copied before anything is done with it (peakextraction.py:841), the peak functions are never written to.  The
baseline object is handed to every cluster (peakextraction.py:835, 861, 900, …; pdfpeakextraction.py:426, 490, 525); a fit with
`fitbaseline=True` - the last one of `extract_single`, the last one of `extract` - writes the values into the object it has.  Whether that
is still the object of the caller depends on the course of the search: a new cluster has it, a fit that is reverted puts a copy in its
place (modelcluster.py:1065, 1096, 1121, 1139), a full boundary replaces the cluster by a copy (peakextraction.py:957, 1096), two clusters
that are joined give one with the object of the left one (modelcluster.py:871).  The first part of this file follows this through the search,
one flag for each model cluster.
-/

namespace Verif.Parts.Repeat

open Verif.Py Verif.PeakList Verif.Extraction Verif.Pdf Verif.Parts.Extract Verif.Parts.ModelCluster Verif.Parts.PdfExtract

variable {K : Type} [Field K] [LinearOrder K]

/-! ### Which clusters have the caller's baseline object -/

/-- `fit(...)` leaves the baseline object of the cluster in place: it is not reverted — modelcluster.py:1044-1143. -/
def kept (W : World K) (o : Opts) (c : Cluster K) : Bool :=
  match started (W.env c) o c, ModelCluster.fit (W.env c) o c with
  | some _, (.ok none, _, _) => false
  | _, _ => true

/-- The flag of the cluster at `i` is kept or lost. -/
def lose (fl : List Bool) (i : ℕ) (b : Bool) : List Bool := fl.set i (fl.getD i false && b)

/-- `Update mclusters` — peakextraction.py:893-911: a new cluster has the object. -/
def updateShare (s : Cluster.State K) (last : ℕ) (ms : List (Cluster K)) (fl : List Bool) : List Bool :=
  if ms.length < s.clusters.length then fl.insertIdx last true else fl

/-- `for a in adjacent: mclusters[a].fit(justify=True)` — peakextraction.py:927-928. -/
def fitAllShare (W : World K) : List ℕ → List (Cluster K) → List Bool → List Bool
  | [], _, fl => fl
  | a :: rest, ms, fl =>
    match ms[a]?, atIndex ms a (fitted W { justify := true }) with
    | some c, .ok ms' => fitAllShare W rest ms' (lose fl a (kept W { justify := true } c))
    | _, _ => fl

/-- `contingent_fit(minpoints, 2.0)` fits, and the fit is reverted, or not — modelcluster.py:1145-1167. -/
def keptContingent (W : World K) (minpoints : ℕ) (c : Cluster K) : Bool :=
  if c.neverFit then true
  else if (0 < c.lastFit ∧ 2 ≤ (c.size : K) / c.lastFit) ∨ (c.lastFit = 0 ∧ minpoints ≤ c.size) then kept W { justify := true } c
  else true

/-- `mclusters[lastcluster_idx].contingent_fit(...)` — peakextraction.py:936. -/
def contingentShare (W : World K) (minpoints last : ℕ) (ms : List (Cluster K)) (fl : List Bool) : List Bool :=
  match ms[last]? with
  | some c => lose fl last (keptContingent W minpoints c)
  | none => fl

/-- A full boundary: the cluster is replaced by a copy — peakextraction.py:955-957, 1096. -/
def boundaryShare (J : Job K) (s : Cluster.State K) (last : ℕ) (fl : List Bool) : List Bool :=
  if s.lastpoint = some 0 ∨ s.lastpoint = some (J.x.length - 1) then fl.set last false else fl

/-- The joined cluster before its fit — peakextraction.py:1106-1308. -/
def joinedUnfit (W : World K) (J : Job K) (rec : Deeper K) (y : List K) (cl cr : ℕ × ℕ) (m1 m2 : Cluster K) :
    Res (Cluster K) := do
  let new ← joinAdjacent W.as W.eqv W.sc W.val (excess W m1) m1 m2
  let xl ← item J.x cl.2
  let xr ← item J.x cr.1
  let yl ← item y cl.2
  let yr ← item y cr.1
  let h ← hood W J.x y J.dy new ((xl + xr) / 2)
  let a1 ← variant1 W J rec h ((xl + xr) / 2) ((yl + yr) / 2)
  let a2 ← variant2 W J rec h
  let _ ← copyOf W { new with model := h.other }
  let best ← better W a1 a2
  withPeaks W new h.other best.model

/-- `for idx in adjacent[-1:0:-1]` — peakextraction.py:1099-1332: the joined cluster has the object of the left one. -/
def joinShare (W : World K) (J : Job K) (rec : Deeper K) (y : List K) (rows : List (ℕ × ℕ)) :
    List ℕ → List (Cluster K) → List Bool → List Bool
  | [], _, fl => fl
  | idx :: rest, ms, fl =>
    match ms[idx - 1]?, ms[idx]? with
    | some m1, some m2 =>
      match joinedUnfit W J rec y (Cluster.row rows (idx - 1)) (Cluster.row rows idx) m1 m2 with
      | .error _ => fl
      | .ok u =>
        match fitted W { justify := true } u with
        | .error _ => fl
        | .ok new =>
          joinShare W J rec y rows rest ((ms.set (idx - 1) new).eraseIdx idx)
            ((lose fl (idx - 1) (kept W { justify := true } u)).eraseIdx idx)
    | _, _ => fl

/-- The flags after the body of the main loop — peakextraction.py:880-1336. -/
def iterationShare (W : World K) (J : Job K) (rec : Deeper K) (y : List K) (minpoints : ℕ) (s : Cluster.State K)
    (ms : List (Cluster K)) (fl : List Bool) : Res (List Bool) := do
  let last := s.lastcluster.getD 0
  let fl := updateShare s last ms fl
  let ms ← update W J y s last ms
  let adj ← (match Cluster.findAdjacent s with | .error o => .error (errOf o) | .ok a => .ok a : Res (List (List ℕ)))
  let adjacent := adj.flatten
  let fl := fitAllShare W adjacent ms fl
  let ms ← fitAll W adjacent ms
  let fl := contingentShare W minpoints last ms fl
  let ms ← atIndex ms last (contingent W minpoints)
  let fl := boundaryShare J s last fl
  let ms ← atBoundary W J rec y s last ms
  pure (joinShare W J rec y s.clusters adjacent.tail.reverse ms fl)

/-- The flags after the main loop — peakextraction.py:877-1338. -/
def mainLoopShare (W : World K) (J : Job K) (rec : Deeper K) (y : List K) (minpoints : ℕ) :
    ℕ → Cluster.State K → List (Cluster K) → List Bool → List Bool
  | 0, _, _, fl => fl
  | n + 1, s, ms, fl =>
    match Cluster.next s with
    | (.ok, s') =>
      match iteration W J rec y minpoints s' ms, iterationShare W J rec y minpoints s' ms fl with
      | .ok (s'', ms'), .ok fl' => mainLoopShare W J rec y minpoints n s'' ms' fl'
      | _, _ => fl
    | _ => fl

/-- Does the model cluster that remains after the main loop have the caller's baseline object?  Initial peaks and pruning do not change
this — peakextraction.py:844-1346. -/
def searchShare (W : World K) (J : Job K) (rec : Deeper K) : Bool :=
  let y0 := List.zipWith (fun a b => b - W.val J.bl a - valueAt W.val J.ip a) J.x J.y
  let y := List.zipWith (fun a b => b - valueAt W.val J.ip a) J.x J.y
  match Cluster.mk J.x y0 J.cres (W.as y0) with
  | .error _ => false
  | .ok dc =>
    match newCluster W J [] (some J.bl) J.x y J.dy (some ⟨some (Cluster.cut dc 0).1, (Cluster.cut dc 0).2⟩),
      maxOf (J.funcs.map (W.minpoints J.method)) with
    | .ok first, .ok mp => (mainLoopShare W J rec y mp J.x.length dc [first] [true]).getD 0 false
    | _, _ => false

/-! ### What is written into it -/

/-- What `fit(...)` of a cluster has written into the baseline object of the cluster, if it has (whether or not the fit is then
reverted) — modelcluster.py:1044-1087. -/
def written (E : Env K) (o : Opts) (c : Cluster K) : Option (Part K) :=
  match started E o c with
  | none => none
  | some c' =>
    match fitBaseline o c' with
    | none => none
    | some b => (E.lsq (c'.model ++ [b])).2.getLast?

/-- The objects after the last fit of `c`, if the cluster has the baseline object `bl` of the caller. -/
def fitOn (W : World K) (held : Bool) (bl : ℕ) (c : Cluster K) (H : Heap K) : Heap K :=
  match held, written ((final W).env c) { fitbaseline := true } c with
  | true, some b => { H with base := Function.update H.base bl b }
  | _, _ => H

/-- The recursive searches of `extract_single()` at the top level — peakextraction.py:1057-1067, 1232-1242, 1278-1288. -/
def below (W : World K) (H : Heap K) (D : Defaults K) (s : PX K) : Deeper K :=
  some (fun r y e =>
    match subSearch D s r y e with
    | .error e => .error e
    | .ok t => extractSingle W H D 2 2 t)

/-- `extract_single()` at the top level until the last fit — peakextraction.py:816-1346: the cluster, and whether it has the
caller's baseline object. -/
def untilLast (W : World K) (H : Heap K) (D : Defaults K) (s : PX K) : Res (Cluster K × Bool) :=
  match defaultvars D s with
  | (.error e, _) => .error e
  | (.ok (), s) =>
    match jobOf H s with
    | .error e => .error e
    | .ok J =>
      match search W J (below W H D s) false with
      | .error e => .error e
      | .ok c => .ok (c, searchShare W J (below W H D s))

/-- The objects after `extract_single()` of an object with the baseline object `bl` — peakextraction.py:816-1365. -/
def afterSingle (W : World K) (D : Defaults K) (bl : ℕ) (s : PX K) (H : Heap K) : Heap K :=
  match untilLast W H D s with
  | .error _ => H
  | .ok (c, held) => fitOn W held bl c H

/-- Does the result of `extract_single()` have the caller's baseline object? — peakextraction.py:1353-1359. -/
def singleShares (W : World K) (D : Defaults K) (s : PX K) (H : Heap K) : Bool :=
  match untilLast W H D s with
  | .error _ => false
  | .ok (c, held) => held && kept (final W) { fitbaseline := true } c

/-- Does the fit of a pass leave the baseline object in place? — pdfpeakextraction.py:491-507. -/
def passKept (W : World K) (H : Heap K) (S : Sampler K) (D : Defaults K) (s : PPX K) (P : Par K) (bl : Option (Part K)) (dr : K)
    (ext : Cluster K) : Bool :=
  match resampledata S D s dr with
  | .error _ => true
  | .ok g =>
    match newCluster W (jobFor H P g) ext.model bl g.1 g.2.1 g.2.2 none with
    | .error _ => true
    | .ok c => kept W {} c

/-- Does the fit of the last pass leave the baseline object in place? — pdfpeakextraction.py:479-526.  (Each pass makes a cluster with the
baseline of the initial extraction.) -/
def passesKept (W : World K) (H : Heap K) (S : Sampler K) (D : Defaults K) (s : PPX K) (P : Par K) (bl : Option (Part K)) (width : K) :
    ℕ → Cluster K → Bool
  | 0, _ => true
  | n + 1, ext =>
    let dr := interval width (drNyquist S P) (freePars ext)
    match pass W H S D s P bl dr ext with
    | .error _ => true
    | .ok ext' =>
      if dr = drNyquist S P then passKept W H S D s P bl dr ext
      else if freePars ext' = freePars ext then passKept W H S D s P bl dr ext
      else passesKept W H S D s P bl width n ext'

/-- Does the model have the baseline object of the initial extraction `c` when it is fitted for the last time? —
pdfpeakextraction.py:440-539. -/
def refineKept (W : World K) (H : Heap K) (S : Sampler K) (D : Defaults K) (s : PPX K) (P : Par K) (n : ℕ) (g : Grid K) (c : Cluster K) : Bool :=
  if 0 < P.q then
    if P.nyquist then
      match widthOf g with
      | .error _ => true
      | .ok width => passesKept W H S D s P c.baseline width n { c with model := c.model.map (wrap S P.q) }
    else true
  else true

/-- The objects after `extract()` when the variables are set, and whether the baseline of the result is the caller's object —
pdfpeakextraction.py:376-544. -/
def afterExtract (W : World K) (S : Sampler K) (D : Defaults K) (n : ℕ) (s : PPX K) (H : Heap K) : Heap K × Bool :=
  match complete s with
  | .error _ => (H, false)
  | .ok P =>
    match firstGrid S D s P with
    | .error _ => (H, false)
    | .ok g =>
      match innerVars D P g with
      | .error _ => (H, false)
      | .ok t =>
        match extractSingle W H D 3 1 t with
        | .error _ => (afterSingle W D P.bl t H, false)
        | .ok c =>
          let held := singleShares W D t H && refineKept W H S D s P n g c
          match refine W H S D s P n g c with
          | some (.ok c') => (fitOn W held P.bl c' (afterSingle W D P.bl t H), held && kept (final W) { fitbaseline := true } c')
          | _ => (afterSingle W D P.bl t H, false)

/-- What `extract()` does to the objects, and whether the baseline of the result is the caller's object —
pdfpeakextraction.py:334-556. -/
def effects (W : World K) (S : Sampler K) (D : Defaults K) (n : ℕ) (o : PObj K) : Heap K × Bool :=
  match pdefaultvars S.pi D o.vars with
  | (.error _, _) => (o.heap, false)
  | (.ok (), s) => afterExtract W S D n s o.heap

/-- `extract()` with the objects after the call — pdfpeakextraction.py:334-556. -/
def extractOn (W : World K) (S : Sampler K) (D : Defaults K) (n : ℕ) (o : PObj K) : Option (Res Unit × PObj K) :=
  (PdfExtract.extract W S D n o).map (fun r => (r.1, { r.2 with heap := (effects W S D n o).1 }))

/-- A `PeakExtraction` after `extract_single()`, with the objects — peakextraction.py:816-1365. -/
def singleOn (W : World K) (D : Defaults K) (o : Obj K) : Res Unit × Obj K :=
  match defaultvars D o.vars with
  | (.error e, s) => (.error e, ⟨s, o.heap, none⟩)
  | (.ok (), s) =>
    let H := match s.baseline with
      | some (.inst bl) => afterSingle W D bl o.vars o.heap
      | _ => o.heap
    match extractSingle W o.heap D 3 1 o.vars with
    | .error e => (.error e, ⟨s, H, none⟩)
    | .ok c => (.ok (), ⟨s, H, some c⟩)

end Verif.Parts.Repeat
