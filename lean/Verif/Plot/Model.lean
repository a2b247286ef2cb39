import Verif.Stability.Model
import Mathlib.Algebra.Order.Floor.Semiring

/-!
# Model of the plotting application (`src/diffpy/srmise/applications/plot.py:82-505`)

What is drawn, as numbers: the curves, the limits of the axes, the segments and dots of the insets.  Colours, fonts,
labels, tick marks, the annotation and the y-label are not modelled.
-/

namespace Verif.Plot

open Verif.Py Verif.PeakList Verif.Extraction Verif.Pdf Verif.Parts.Extract Verif.Parts.ModelCluster
open Verif.Parts.PdfExtract Verif.Parts.Stability Verif.Parts

variable {K : Type} [Field K] [LinearOrder K] [FloorSemiring K]

/-- A point of a polyline; `none` is NaN, where a line is interrupted. -/
abbrev Pt (K : Type) := Option K × K

/-- `kwds.get(...)`: the keywords of `makeplot` that concern what is modelled — plot.py:215-262. -/
structure Kwds (K : Type) where
  xlo : Option K := none
  xhi : Option K := none
  minGr : Option K := none
  maxGr : Option K := none
  ylo : Option K := none
  yhi : Option K := none
  resbase : Option K := none
  scale : Option K := none
  dgmin : Option K := none
  dgmax : Option K := none
  topOffset : Option K := none
  dgHeight : Option K := none
  cmpHeight : Option K := none
  datatopOffset : Option K := none
  databottomOffset : Option K := none
  bottomOffset : Option K := none
  showFit : Bool := true
  showIndividual : Bool := true
  fillIndividual : Bool := true
  showObserved : Bool := true
  showResidual : Bool := true
  maskResidual : Option K := none

/-- `np.arange(a, b, d)`.  A step of 0 is ValueError (the number of points is NaN or infinite). -/
def arange (a b d : K) : Res (List K) :=
  if d = 0 then .error .value else .ok ((List.range ⌈(b - a) / d⌉₊).map (fun k : ℕ => a + k * d))

/-- `xi` with `yi` — plot.py:98-102, 105-109: two points and a NaN per position. -/
def bars (base height : K) : List K → List (Pt K)
  | [] => []
  | p :: ps => (some p, base) :: (some p, base + height) :: (none, base) :: bars base height ps

/-- What `comparepositions` draws: the ideal positions, the extracted ones, the limits of y. -/
structure Compare (K : Type) where
  ideal : Option (List (Pt K))
  found : List (Pt K)
  lo : K
  hi : K

/-- `comparepositions(ppe, ip, base, yideal, yext, pmin, pmax)` — plot.py:82-134; `pmin`, `pmax` none: infinite. -/
def comparepositions (found : List K) (ip : Option (List K)) (base yideal yext : K) (pmin pmax : Option K) : Compare K :=
  let ep := found.filter (fun p => decide ((∀ a ∈ pmin, a ≤ p) ∧ (∀ b ∈ pmax, p ≤ b)))
  ⟨ip.map (bars base yideal), bars base yext ep, if ip.isSome then base + yideal else base, base + yext⟩

/-- The dots of `dgseries(stability, scale, dgmin, dgmax, pmin, pmax)` — plot.py:137-160.  A result is its uncertainty
and the positions of its peaks.  The defaults of `dgmin` and `dgmax` are computed whether they are used or not: IndexError
without results. -/
def dgseries (results : List (K × List K)) (scale dgmin dgmax : Option K) (pmin : K) (pmax : Option K) : Res (List (K × K)) :=
  match results.head?, results.getLast? with
  | some first, some last =>
    let s := scale.getD 1
    let lo := dgmin.getD first.1 * s
    let hi := dgmax.getD last.1 * s
    .ok ((results.filter (fun r => !(decide (r.1 * s < lo) || decide (hi < r.1 * s)))).flatMap (fun r =>
      (r.2.filter (fun p => decide (pmin ≤ p ∧ ∀ b ∈ pmax, p ≤ b))).map (fun p => (p, r.1 * s))))
  | _, _ => .error .index

/-- The cluster to be plotted: coordinates, values and uncertainties of the slice, value of the baseline, position and
value of each peak. -/
structure Shown (K : Type) where
  r : List K
  y : List K
  err : List K
  bl : K → K
  peaks : List (K × (K → K))

/-- `ext.value(x)` — modelcluster.py:1267-1289. -/
def Shown.value (e : Shown K) (a : K) : K := e.bl a + (e.peaks.map (fun p => p.2 a)).sum

/-- The members of a `ModelCluster` that are read. -/
def shownOf (W : World K) (c : Cluster K) : Res (Shown K) :=
  match c.slice with
  | none => .error .attribute
  | some s => .ok ⟨s.get c.r, s.get c.y, s.get c.err, valuebl W c.baseline, c.model.map (fun p => (pos p, W.val p))⟩

/-- `ext`, if nothing has been extracted — plot.py:189-209: the initial peaks on the data of the range.  The variables
may have been completed. -/
def madeUp (W : World K) (pi : K) (D : Defaults K) (o : PObj K) : Res (Cluster K) × PObj K :=
  match pdefaultvars pi D o.vars with
  | (.error e, v) => (.error e, { o with vars := v })
  | (.ok (), v) =>
    let o := { o with vars := v }
    (do
      let P ← complete v
      let sl ← getrangeslice P.x P.a P.b
      let g ← rawGrid P sl 1
      newCluster W (jobFor o.heap P g) (o.heap.peaks P.ip) (some (o.heap.base P.bl)) g.1 g.2.1 g.2.2 none, o)

/-- `ext` — plot.py:189-211. -/
def extOf (W : World K) (pi : K) (D : Defaults K) (o : PObj K) : Res (Cluster K) × PObj K :=
  match o.extracted with
  | some c => (.ok c, o)
  | none => madeUp W pi D o

/-- What is drawn. -/
structure Figure (K : Type) where
  xlim : K × K
  ylim : K × K
  observed : Option (List (K × K))
  fit : Option (List (K × K))
  fills : List (List (K × K × K))
  residual : Option (List (K × K))
  resbase : K
  datatop : K
  cmp : Option (Compare K)
  dg : Option (List (K × K))

/-- `rexpand` — plot.py:266-273. -/
def rexpand (r : List K) (r0 r1 xlo xhi dr : K) : Res (List K) := do
  let a ← arange (r0 - dr) xlo (-dr)
  let b ← arange (r1 + dr) (xhi + dr) dr
  pure (a.reverse ++ r ++ b)

/-- `np.min`, ValueError if there is nothing. -/
def lowest (l : List K) : Res K :=
  match l.min? with
  | none => .error .value
  | some m => .ok m

/-- `np.max`. -/
def highest (l : List K) : Res K :=
  match l.max? with
  | none => .error .value
  | some m => .ok m

/-- `[f(gr) for gr in all_gr]`. -/
def each (f : List K → Res K) : List (List K) → Res (List K)
  | [] => .ok []
  | l :: ls => match f l with
    | .error e => .error e
    | .ok v => match each f ls with
      | .error e => .error e
      | .ok vs => .ok (v :: vs)

/-- The heights — plot.py:226-233: those given, or the defaults, which depend on whether there is a series and whether
there are ideal positions. -/
structure Heights (K : Type) where
  top : K
  dg : K
  cmp : K
  datatop : K
  databottom : K
  bottom : K

def heights (k : Kwds K) (series ideal : Bool) : Heights K where
  top := k.topOffset.getD 0
  dg := k.dgHeight.getD (if series then 15 else 0)
  cmp := k.cmpHeight.getD (if ideal then 15 else 15 / 2)
  datatop := k.datatopOffset.getD 3
  databottom := k.databottomOffset.getD 3
  bottom := k.bottomOffset.getD 3

/-- The curves — plot.py:264-299. -/
structure Curves (K : Type) where
  rexpand : List K
  rfine : List K
  obs : List K
  fit : List K
  bl : List K
  ind : List (List K)
  res : List K

def curves (resample : List K → List K → List K → Res (List K)) (x y : List K) (e : Shown K) (xlo xhi s : K) :
    Res (Curves K) :=
  match e.r.head?, e.r.getLast? with
  | some r0, some r1 => do
    let dr := (r1 - r0) / e.r.length
    let re ← rexpand e.r r0 r1 xlo xhi dr
    let rf ← arange r0 r1 (1 / 10 * dr)
    let obs ← resample x y re
    let bl := rf.map (fun a => e.bl a * s)
    pure ⟨re, rf, obs.map (· * s), rf.map (fun a => e.value a * s), bl,
      e.peaks.map (fun p => List.zipWith (· + ·) bl (rf.map (fun a => p.2 a * s))),
      List.zipWith (fun a v => (v - e.value a) * s) e.r e.y⟩
  | _, _ => .error .index

/-- Whether a value of the residual is drawn: `np.ma.masked_outside(gr_res, -mask_residual, mask_residual)` (numpy brings the two
bounds in order), if `mask_residual` is given and not 0 — plot.py:259, 281-282. -/
def unmasked (k : Kwds K) (v : K) : Bool :=
  match k.maskResidual with
  | none => true
  | some m => m = 0 || (min (-m) m ≤ v && v ≤ max (-m) m)

/-- `all_gr` — plot.py:283-292. -/
def allGr (k : Kwds K) (c : Curves K) : List (List K) :=
  (if k.showFit then [c.fit] else []) ++ (if k.showIndividual then c.bl :: c.ind else []) ++
    (if k.showObserved then [c.obs] else [])

/-- `min_gr, max_gr, min_res, max_res` — plot.py:294-307.  The defaults are computed even if they are not used.
Masked values do not count; if all are masked numpy returns `masked` for the minimum, and what comes of an axis with such limits is
not modelled (it is an error here). -/
def extremes (k : Kwds K) (c : Curves K) (s : K) : Res (K × K × K × K) := do
  let lo ← each lowest (allGr k c)
  let lo ← lowest lo
  let hi ← each highest (allGr k c)
  let hi ← highest hi
  let mn := k.minGr.getD (lo / s) * s
  let mx := k.maxGr.getD (hi / s) * s
  if k.showResidual then do
    let a ← lowest (c.res.filter (unmasked k))
    let b ← highest (c.res.filter (unmasked k))
    pure (mn, mx, a, b)
  else pure (mn, mx, 0, 0)

/-- `ylo, yhi, datatop, resbase` — plot.py:309-324. -/
def limits (k : Kwds K) (h : Heights K) (mn mx a b : K) : K × K × K × K :=
  let rel := 100 - h.top - h.dg - h.cmp - h.datatop - h.databottom - h.bottom
  let abs := 100 * ((mx - mn) + (b - a)) / rel
  let yhi := mx + (h.top + h.dg + h.cmp + h.datatop) * abs / 100
  let ylo := k.ylo.getD (yhi - abs)
  let yhi := k.yhi.getD yhi
  (ylo, yhi, yhi - (yhi - ylo) * (1 / 100) * (h.top + h.dg + h.cmp), k.resbase.getD (ylo + h.bottom * abs / 100 - a))

/-- `makeplot(ppe_or_stability, ip, ...)` — plot.py:178-505.  `e` is the cluster, `x`, `y` are the data of the
extraction, `series` the results if a `PeakStability` is plotted. -/
def makeplot (resample : List K → List K → List K → Res (List K)) (x y : List K) (e : Shown K)
    (series : Option (List (K × List K))) (ip : Option (List K)) (k : Kwds K) : Res (Figure K) :=
  match e.r.head?, e.r.getLast? with
  | some r0, some r1 => do
    let xlo := k.xlo.getD r0
    let xhi := k.xhi.getD r1
    let s := k.scale.getD 1
    let h := heights k series.isSome ip.isSome
    let c ← curves resample x y e xlo xhi s
    let (mn, mx, a, b) ← extremes k c s
    let (ylo, yhi, datatop, resbase) := limits k h mn mx a b
    let dg ← (if 0 < h.dg then
      match series with
      | none => .error .attribute
      | some l => match dgseries l k.scale k.dgmin k.dgmax r0 (some r1) with
        | .error er => .error er
        | .ok d => .ok (some d)
      else .ok none : Res (Option (List (K × K))))
    pure {
      xlim := (xlo, xhi), ylim := (ylo, yhi),
      observed := if k.showObserved then some (c.rexpand.zip c.obs) else none,
      fit := if k.showFit then some (c.rfine.zip c.fit) else none,
      fills := if k.fillIndividual then c.ind.map (fun p => c.rfine.zip (c.bl.zip p)) else [],
      residual := if k.showResidual then some (((e.r.zip c.res).filter (fun q => unmasked k q.2)).map (fun q => (q.1, q.2 + resbase))) else none,
      resbase := resbase, datatop := datatop,
      cmp := if 0 < h.cmp then some (comparepositions (e.peaks.map Prod.fst) ip 0 (-1) 1 none none) else none,
      dg := dg }
  | _, _ => .error .index

end Verif.Plot
