import Verif.Extract.EstimateModel
import Verif.Pdf.Model
import Verif.Pdf.VarsModel

/-!
# Model of `PDFPeakExtraction.extract` and `.fit` (`src/diffpy/srmise/pdfpeakextraction.py:255-310, 334-638`)

The searches and fits are those of `Verif.Extract`.  Log messages and the tracer are not modelled; the
covariance that is returned is in `Verif.PdfExtract.Cov`.
-/

namespace Verif.Parts.PdfExtract

open Verif.Py Verif.Extraction Verif.Pdf Verif.Parts.Extract Verif.Parts.ModelCluster

variable {K : Type}

/-- What resampling and termination ripples need: `np.pi`, `errorscale(dr)` for given qmax, nyquist, scale,
`np.arange`, `resample`, `np.interp`, `TerminationRipples(base, qmax)`, `isinstance(o, TerminationRipples)`.
`realSampler` has the functions of the code. -/
structure Sampler (K : Type) where
  pi : K
  errorscale : K → Bool → Bool → K → K
  arange : K → K → K → List K
  resample : List K → List K → List K → Res (List K)
  interp : K → List K → List K → K
  ripple : K → Owner K → Owner K
  isRipple : Owner K → Bool

/-- The functions of the code (see `Pdf.Model`). -/
noncomputable def realSampler (ripple : ℝ → Owner ℝ → Owner ℝ) (isRipple : Owner ℝ → Bool) : Sampler ℝ :=
  ⟨Real.pi, Pdf.errorscale, Pdf.arange, Pdf.resample, Pdf.interp, ripple, isRipple⟩

/-- The kinds of extraction — pdfpeakextraction.py:549, 632. -/
inductive Kind
  | extract
  | fit
  deriving DecidableEq

/-- A `PDFPeakExtraction`: variables, the objects they refer to, `extracted`, `extraction_type`. -/
structure PObj (K : Type) where
  vars : PPX K
  heap : Heap K
  extracted : Option (Cluster K)
  kind : Option Kind

/-- The variables when all are set, with the ends of the data. -/
structure Par (K : Type) where
  x : List K
  y : List K
  eff : EffDy K
  a : K
  b : K
  x0 : K
  x1 : K
  q : K
  nyquist : Bool
  scale : Bool
  ss : K
  cres : K
  em : ℕ
  pf : ℕ
  bl : ℕ
  ip : ℕ

/-- Use of a member that is None: TypeError. -/
def need {α : Type} : Option α → Res α
  | some a => .ok a
  | none => .error .type

/-- `x[0]`, `x[-1]`. -/
def need1 {α : Type} : Option α → Res α
  | some a => .ok a
  | none => .error .index

/-- The range, complete. -/
def needRng : Option (Option K × Option K) → Res (K × K)
  | some (some a, some b) => .ok (a, b)
  | _ => .error .type

/-- The baseline, an instance. -/
def needBase : Option Base → Res ℕ
  | some (.inst b) => .ok b
  | _ => .error .type

/-- The variables as they are read after `defaultvars`. -/
def complete (s : PPX K) : Res (Par K) := do
  let x ← need s.base.x
  let y ← need s.base.y
  let r ← needRng s.base.rng
  let x0 ← need1 x.head?
  let x1 ← need1 x.getLast?
  let q ← need s.qmax
  let n ← need s.nyquist
  let sc ← need s.scale
  let ss ← need s.supersample
  let cres ← need s.base.cres
  let em ← need s.base.errorMethod
  let pf ← need s.base.pf
  let bl ← needBase s.base.baseline
  let ip ← need s.base.initialPeaks
  pure ⟨x, y, s.base.effdy, r.1, r.2, x0, x1, q, n, sc, ss, cres, em, pf, bl, ip⟩

/-- Coordinates, values, uncertainties. -/
abbrev Grid (K : Type) := List K × List K × List K

section

variable [Field K] [LinearOrder K]

/-- `resampledata(dr)` with complete variables — pdfpeakextraction.py:299-310, without the error in x.
`np.interp` with a scalar is ValueError.  (A step that is not positive makes the grid empty here, and the call raise IndexError;
`np.arange` raises ZeroDivisionError for 0.) -/
def sampled (S : Sampler K) (P : Par K) (dr : K) : Res (Grid K) :=
  let r := S.arange (max P.x0 P.a) (min P.x1 P.b) dr
  match S.resample P.x P.y r with
  | .error e => .error e
  | .ok y =>
    match P.eff with
    | .array e => .ok (r, y, r.map (fun v => S.errorscale P.q P.nyquist P.scale dr * S.interp v P.x e))
    | _ => .error .value

/-- `resampledata(dr)` — pdfpeakextraction.py:255-310. -/
def resampledata (S : Sampler K) (D : Defaults K) (s : PPX K) (dr : K) : Res (Grid K) :=
  match pdefaultvars S.pi D s with
  | (.error e, _) => .error e
  | (.ok (), t) =>
    match complete t with
    | .error e => .error e
    | .ok P => sampled S P dr

/-- The data of the range, with the uncertainties multiplied — pdfpeakextraction.py:401-403, 412-414, 599-601. -/
def rawGrid (P : Par K) (sl : ℕ × ℤ) (factor : K) : Res (Grid K) :=
  let s := some (sl.1, sl.2.toNat)
  match P.eff with
  | .array e => .ok (getSlice P.x s, getSlice P.y s, (getSlice e s).map (fun v => factor * v))
  | _ => .error .type

/-- `dr_raw` — pdfpeakextraction.py:376, 577. -/
def drRaw (P : Par K) : K := (P.x1 - P.x0) / ((P.x.length : K) - 1)

/-- `dr_nyquist` — pdfpeakextraction.py:380-396, 581-594. -/
def drNyquist (S : Sampler K) (P : Par K) : K := if 0 < P.q then S.pi / P.q else drRaw P

/-- The grid of the initial extraction — pdfpeakextraction.py:398-414.  (With a single point and qmax other than 0
the spacing is 0/0; ZeroDivisionError here, NaN in numpy.) -/
def firstGrid (S : Sampler K) (D : Defaults K) (s : PPX K) (P : Par K) : Res (Grid K) :=
  match getrangeslice P.x P.a P.b with
  | .error e => .error e
  | .ok sl =>
    if P.q = 0 then rawGrid P sl 1
    else if P.x.length = 1 then .error (.other 1)
    else if drNyquist S P / drRaw P < P.ss then resampledata S D s (drNyquist S P / P.ss)
    else rawGrid P sl (S.errorscale P.q P.nyquist P.scale (drRaw P))

/-- The inner `PeakExtraction` — pdfpeakextraction.py:417-433, 606-619. -/
def innerVars (D : Defaults K) (P : Par K) (g : Grid K) : Res (PX K) :=
  match setdata {} g.1 g.2.1 none none with
  | (.error e, _) => .error e
  | (.ok (), t) =>
    match setvars D t [.cres (some P.cres), .pf (some P.pf), .effective_dy (.array g.2.2),
        .baseline (some (.inst P.bl)), .error_method (some P.em), .initial_peaks (some P.ip)] with
    | (.error e, _) => .error e
    | (.ok (), t) => .ok t

/-- A peak with termination ripples — pdfpeakextraction.py:455-471: `changeowner` unless the function has ripples
already; SrMiseStaticOwnerError, the only exception of `changeowner`, is ignored. -/
def wrap (S : Sampler K) (q : K) (p : Part K) : Part K :=
  if S.isRipple p.owner then p else (p.changeowner (S.ripple q p.owner)).2

/-- `ext.npars(count_fixed=False)` — modelcluster.py `npars`. -/
def freePars (c : Cluster K) : ℕ :=
  Parts.npars c.model false + (match c.baseline with | some b => b.npars false | none => 0)

/-- The evaluator and the functions of the clusters made here. -/
def jobFor (H : Heap K) (P : Par K) (g : Grid K) : Job K :=
  ⟨g.1, g.2.1, g.2.2, H.base P.bl, [], P.cres, P.em, H.funcs P.pf⟩

/-- One pass of the loop — pdfpeakextraction.py:491-507. -/
def pass (W : World K) (H : Heap K) (S : Sampler K) (D : Defaults K) (s : PPX K) (P : Par K)
    (bl : Option (Part K)) (dr : K) (ext : Cluster K) : Res (Cluster K) := do
  let g ← resampledata S D s dr
  let c ← newCluster W (jobFor H P g) ext.model bl g.1 g.2.1 g.2.2 none
  let c ← fitted W {} c
  pruned W (jobFor H P g) c

/-- The sampling interval of a pass — pdfpeakextraction.py:480-484. -/
def interval (width nyq : K) (total : ℕ) : K :=
  if width / nyq ≤ (total : K) then 9999 / 10000 * width / total else nyq

/-- The loop — pdfpeakextraction.py:479-526.  `none`: not finished after that many passes. -/
def nyquistPasses (W : World K) (H : Heap K) (S : Sampler K) (D : Defaults K) (s : PPX K) (P : Par K)
    (bl : Option (Part K)) (width : K) : ℕ → Cluster K → Option (Res (Cluster K))
  | 0, _ => none
  | n + 1, ext =>
    match pass W H S D s P bl (interval width (drNyquist S P) (freePars ext)) ext with
    | .error e => some (.error e)
    | .ok ext' =>
      if interval width (drNyquist S P) (freePars ext) = drNyquist S P then some (.ok ext')
      else if freePars ext' = freePars ext then some (.ok ext')
      else nyquistPasses W H S D s P bl width n ext'

/-- `r1[-1] - r1[0]`. -/
def widthOf (g : Grid K) : Res K :=
  match g.1.head?, g.1.getLast? with
  | some a, some b => .ok (b - a)
  | _, _ => .error .index

/-- Without Nyquist sampling — pdfpeakextraction.py:527-539. -/
def plain (W : World K) (H : Heap K) (S : Sampler K) (P : Par K) (g : Grid K) (c : Cluster K) : Res (Cluster K) := do
  let c ← newCluster W (jobFor H P g) (c.model.map (wrap S P.q)) c.baseline g.1 g.2.1 g.2.2 none
  pruned W (jobFor H P g) c

/-- After the initial extraction — pdfpeakextraction.py:440-539; `n` bounds the number of resamplings. -/
def refine (W : World K) (H : Heap K) (S : Sampler K) (D : Defaults K) (s : PPX K) (P : Par K) (n : ℕ)
    (g : Grid K) (c : Cluster K) : Option (Res (Cluster K)) :=
  if 0 < P.q then
    if P.nyquist then
      match widthOf g with
      | .error e => some (.error e)
      | .ok width => nyquistPasses W H S D s P c.baseline width n { c with model := c.model.map (wrap S P.q) }
    else some (plain W H S P g c)
  else some (.ok c)

/-- `extract` from `defaultvars` to the end of the initial extraction — pdfpeakextraction.py:376-436. -/
def begun (W : World K) (H : Heap K) (S : Sampler K) (D : Defaults K) (s : PPX K) : Res (Par K × Grid K × Cluster K) := do
  let P ← complete s
  let g ← firstGrid S D s P
  let t ← innerVars D P g
  let c ← extractSingle W H D 3 1 t
  pure (P, g, c)

/-- The final fit — pdfpeakextraction.py:543-544. -/
def finished (W : World K) (r : Res (Cluster K)) : Res (Cluster K) :=
  match r with
  | .error e => .error e
  | .ok c => fitted (final W) { fitbaseline := true } c

/-- `extract` after `defaultvars` — pdfpeakextraction.py:376-544. -/
def extracted (W : World K) (H : Heap K) (S : Sampler K) (D : Defaults K) (s : PPX K) (n : ℕ) :
    Option (Res (Cluster K)) :=
  match begun W H S D s with
  | .error e => some (.error e)
  | .ok (P, g, c) => (refine W H S D s P n g c).map (finished W)

/-- What `extract` leaves. -/
def leave (s : PPX K) (H : Heap K) (r : Res (Cluster K)) : Res Unit × PObj K :=
  match r with
  | .error e => (.error e, ⟨s, H, none, none⟩)
  | .ok c => (.ok (), ⟨s, H, some c, some .extract⟩)

/-- `extract()` — pdfpeakextraction.py:334-556; `none`: not finished after `n` resamplings.  The result has the
objects from before the call; what the call does to them is in `Repeat/Model.lean` (`extractOn`). -/
def extract (W : World K) (S : Sampler K) (D : Defaults K) (n : ℕ) (o : PObj K) : Option (Res Unit × PObj K) :=
  match pdefaultvars S.pi D o.vars with
  | (.error e, s) => some (.error e, ⟨s, o.heap, none, none⟩)
  | (.ok (), s) => (extracted W o.heap S D s n).map (leave s o.heap)

/-- The grid of `fit` — pdfpeakextraction.py:596-603.  (A single point is no problem here unless it is resampled.) -/
def fitGrid (S : Sampler K) (D : Defaults K) (s : PPX K) (P : Par K) : Res (Grid K) :=
  match getrangeslice P.x P.a P.b with
  | .error e => .error e
  | .ok sl =>
    if P.q = 0 ∨ P.nyquist = false then rawGrid P sl 1
    else resampledata S D s (drNyquist S P)

/-- The data and variables for `fit_single` — pdfpeakextraction.py:577-619. -/
def fitVars (S : Sampler K) (D : Defaults K) (s : PPX K) : Res (PX K) := do
  let P ← complete s
  let g ← fitGrid S D s P
  innerVars D P g

/-- `fit()` — pdfpeakextraction.py:558-638: `fit_single` of the inner object, which works on the same objects. -/
def fit (W : World K) (S : Sampler K) (D : Defaults K) (o : PObj K) : Res Unit × PObj K :=
  match pdefaultvars S.pi D o.vars with
  | (.error e, s) => (.error e, ⟨s, o.heap, none, none⟩)
  | (.ok (), s) =>
    match fitVars S D s with
    | .error e => (.error e, ⟨s, o.heap, none, none⟩)
    | .ok t =>
      match fitSingle W D ⟨t, o.heap, none⟩ with
      | (.error e, i) => (.error e, ⟨s, i.heap, none, none⟩)
      | (.ok (), i) => (.ok (), ⟨s, i.heap, i.extracted, some .fit⟩)

end

end Verif.Parts.PdfExtract
