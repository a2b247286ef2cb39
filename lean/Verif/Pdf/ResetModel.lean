import Verif.Pdf.VarsModel

/-!
# Model of `defaultvars(*names)`: restoring the defaults of named variables
(`src/diffpy/srmise/peakextraction.py:174-253`, `src/diffpy/srmise/pdfpeakextraction.py:189-253`)

`Extraction.defaultvars` and `Pdf.pdefaultvars` are the calls without names.
-/

namespace Verif.Pdf

open Verif.Py Verif.Extraction

variable {K : Type} [Field K] [LinearOrder K]

/-- `if self.cres is None or "cres" in args` — peakextraction.py:203-204. -/
def rCres (args : List String) (s : PX K) : Res Unit × PX K :=
  if s.cres.isNone ∨ "cres" ∈ args then
    match ends s, s.x with
    | .ok (a, b), some x => (.ok (), { s with cres := some (4 * (b - a) / x.length) })
    | .error e, _ => (.error e, s)
    | _, _ => (.error .type, s)
  else (.ok (), s)

/-- `effective_dy`, recomputed — peakextraction.py:207-212. -/
def freshEff (s : PX K) : Res Unit × PX K :=
  match s.x, s.y, s.dy with
  | some x, some y, some dy =>
    if dy.all (fun v => decide (0 < v)) then (.ok (), { s with effdy := .array dy })
    else match spread y with
      | .error e => (.error e, s)
      | .ok w => (.ok (), { s with effdy := .array (x.map (fun _ => 5 / 100 * w)) })
  | _, _, _ => (.error .type, s)

/-- `effective_dy` — peakextraction.py:206-214. -/
def rEffdy (args : List String) (s : PX K) : Res Unit × PX K :=
  if s.effdy = .unset ∨ "effective_dy" ∈ args then freshEff s
  else match s.effdy, s.x with
    | .scalar v, some x => if 0 < v then (.ok (), { s with effdy := .array (x.map (fun _ => v)) }) else (.ok (), s)
    | .scalar v, none => if 0 < v then (.error .type, s) else (.ok (), s)
    | _, _ => (.ok (), s)

/-- `pf` — peakextraction.py:216-220. -/
def rPf (D : Defaults K) (args : List String) (s : PX K) : Res Unit × PX K :=
  if s.pf.isNone ∨ "pf" ∈ args then
    match ends s with
    | .error e => (.error e, s)
    | .ok (a, b) => if b - a ≤ 0 then (.error .value, s)
      else (.ok (), { s with pf := some (D.gaussianOverR (b - a)) })
  else (.ok (), s)

/-- `rng` — peakextraction.py:222-228. -/
def rRng (args : List String) (s : PX K) : Res Unit × PX K :=
  if s.rng.isNone ∨ "rng" ∈ args then
    match ends s with
    | .error e => (.error e, s)
    | .ok (a, b) => (.ok (), { s with rng := some (some a, some b) })
  else match s.rng with
    | some (some _, some _) => (.ok (), s)
    | r => match ends s with
      | .error e => (.error e, s)
      | .ok (a, b) => (.ok (), { s with rng := some (some ((r.bind Prod.fst).getD a), some ((r.bind Prod.snd).getD b)) })

/-- The baseline that is estimated when `baseline` is a function — peakextraction.py:231-239: also when the default is
asked for. -/
def estBaseline (D : Defaults K) (s : PX K) : Res Unit × PX K :=
  match s.baseline with
  | some (.func f) =>
    match selected s with
    | .error e => (.error e, s)
    | .ok (xs, ys) =>
      match D.estimate f xs ys with
      | .ok b => (.ok (), { s with baseline := some (.inst b) })
      | .error .notImplemented => (.ok (), { s with baseline := none })
      | .error .estimation => (.ok (), { s with baseline := none })
      | .error e => (.error e, s)
  | _ => (.ok (), s)

/-- `if self.baseline is None or "baseline" in args` — peakextraction.py:241-245. -/
def rBaseline (D : Defaults K) (args : List String) (s : PX K) : Res Unit × PX K :=
  if s.baseline.isNone ∨ "baseline" ∈ args then (.ok (), { s with baseline := some (.inst D.zeroBaseline) })
  else (.ok (), s)

/-- `error_method`, `initial_peaks` — peakextraction.py:247-253. -/
def rRest (D : Defaults K) (args : List String) (s : PX K) : Res Unit × PX K :=
  let s := if s.errorMethod.isNone ∨ "error_method" ∈ args then { s with errorMethod := some D.aic } else s
  let s := if s.initialPeaks.isNone ∨ "initial_peaks" ∈ args then { s with initialPeaks := some D.noPeaks } else s
  (.ok (), s)

/-- `PeakExtraction.defaultvars(*args)` — peakextraction.py:174-253. -/
def resetvars (D : Defaults K) (args : List String) (s : PX K) : Res Unit × PX K :=
  andThen (andThen (andThen (andThen (andThen (andThen (rCres args s) (rEffdy args)) (rPf D args)) (rRng args))
    (estBaseline D)) (rBaseline D args)) (rRest D args)

/-- `qmax` — pdfpeakextraction.py:201-209: `reported`, then `fromdata`, then 0. -/
def rQmax (args : List String) (s : PPX K) : PPX K :=
  if s.qmax.isNone ∨ "qmax" ∈ args then
    match s.qmaxReported, s.qmaxFromData with
    | some q, _ => { s with qmax := some q }
    | none, some q => { s with qmax := some q }
    | none, none => { s with qmax := some 0 }
  else s

/-- `self.qmax > 0`, after `rQmax`. -/
def qPositive (s : PPX K) : Bool := decide (0 < s.qmax.getD 0)

/-- `nyquist`, `scale`, `supersample` — pdfpeakextraction.py:211-233. -/
def rSampling (args : List String) (s : PPX K) : PPX K :=
  let s := if s.nyquist.isNone ∨ "nyquist" ∈ args then { s with nyquist := some (qPositive s) } else s
  let s := if s.scale.isNone ∨ "scale" ∈ args then { s with scale := some false } else s
  if s.supersample.isNone ∨ "supersample" ∈ args then { s with supersample := some 4 } else s

/-- `if "name" in args: nargs.remove("name")`: the first occurrence only. -/
def dropName (name : String) (nargs : List String) : List String := nargs.erase name

/-- `cres` and the names that remain — pdfpeakextraction.py:235-240: the name is only removed when the default of this class
was used. -/
def rPdfCres (pi : K) (args : List String) (p : List String × PPX K) : List String × PPX K :=
  if (p.2.base.cres.isNone ∨ "cres" ∈ args) ∧ qPositive p.2 then
    (if "cres" ∈ args then dropName "cres" p.1 else p.1,
      { p.2 with base := { p.2.base with cres := some (pi / p.2.qmax.getD 0) } })
  else p

/-- `pf` — pdfpeakextraction.py:242-247. -/
def rPdfPf (D : Defaults K) (args : List String) (p : List String × PPX K) : List String × PPX K :=
  if p.2.base.pf.isNone ∨ "pf" ∈ args then
    (if "pf" ∈ args then dropName "pf" p.1 else p.1,
      { p.2 with base := { p.2.base with pf := some (D.gaussianOverR (7 / 10)) } })
  else p

/-- `if "dg" in args and "effective_dy" not in args` — pdfpeakextraction.py:249-251. -/
def addAlias (args nargs : List String) : List String :=
  if "dg" ∈ args ∧ "effective_dy" ∉ args then nargs ++ ["effective_dy"] else nargs

/-- The names passed on, after the removals for qmax, nyquist, scale, supersample — pdfpeakextraction.py:199-233 (each of
these is removed once if it is present, and ignored by the base class if it is still there). -/
def dropSampling (args : List String) : List String :=
  dropName "supersample" (dropName "scale" (dropName "nyquist" (dropName "qmax" args)))

/-- `PDFPeakExtraction.defaultvars(*args)` — pdfpeakextraction.py:189-253. -/
def presetvars (pi : K) (D : Defaults K) (args : List String) (s : PPX K) : Res Unit × PPX K :=
  let p := rPdfPf D args (rPdfCres pi args (dropSampling args, rSampling args (rQmax args s)))
  let r := resetvars D (addAlias args p.1) p.2.base
  (r.1, { p.2 with base := r.2 })

end Verif.Pdf
