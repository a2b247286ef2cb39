import Verif.Pdf.Vars
import Verif.DataSet.Props
import Verif.Parts.Model

/-!
# Model of the command line program (`src/diffpy/srmise/applications/extract.py`)

From the parsed options (what `optparse` returns) to the call of `setvars`.  A text is a list of characters.
Python's `eval`, `float` and the files are arguments.
-/

namespace Verif.App

open Verif.Py Verif.Extraction Verif.Pdf

variable {K : Type}

/-- The choices of `--dg-mode` — extract.py:309-319. -/
inductive DgMode
  | absolute
  | data
  | maxFraction
  | ptpFraction
  | dGFraction
  deriving DecidableEq

/-- The parsed options — extract.py:117-421; `none` is the default `None`. -/
structure Options (K : Type) where
  performextraction : Bool := true
  rng : Option (K × K) := none
  qmax : Option (List Char) := none
  nyquist : Option Bool := none
  peakfunction : Option (List Char) := none
  cres : Option K := none
  supersample : Option K := none
  modelevaluator : Option (List Char) := none
  baseline : Option (List Char) := none
  bcrystal : Option (List Char) := none
  bsrmise : Option (List Char) := none
  bpoly0 : Option (List Char) := none
  bpoly1 : Option (List Char × List Char) := none
  bpoly2 : Option (List Char × List Char × List Char) := none
  bseq : Option (List Char) := none
  bspherical : Option (List Char × List Char) := none
  dgMode : Option DgMode := none
  dg : Option K := none
  scale : Option Bool := none

/-! ### Baselines -/

/-- `parsepars(mp, parseq)` up to the call of `actualize` — extract.py:619-640: parameters and free flags.  The last
character of an empty text is IndexError. -/
def parsepars (float : List Char → Option K) : List (List Char) → Res (List K × List Bool)
  | [] => .ok ([], [])
  | p :: ps =>
    match p.getLast? with
    | none => .error .index
    | some c =>
      match float (if c = 'c' then p.dropLast else p) with
      | none => .error .value
      | some v =>
        match parsepars float ps with
        | .error e => .error e
        | .ok (vs, fs) => .ok (v :: vs, decide (c ≠ 'c') :: fs)

/-- What `options.baseline` is after extract.py:480-537: nothing, a `BaselineFunction` (or whatever `eval` gave), or a
`Baseline`: here its function, parameters and free flags. -/
inductive Chosen (F K : Type)
  | nothing
  | func (f : F)
  | part (f : F) (pars : List K) (free : List Bool)
  deriving DecidableEq

/-- The baseline functions the program makes itself. -/
inductive Made
  | poly (degree : ℕ)
  | nano
  | seq (file : List Char)
  | evaluated (n : ℕ)
  deriving DecidableEq

/-- Number of parameters of a baseline function — polynomial.py:55, nanospherical.py:60, fromsequence.py:97; `other` is
that of a baseline given by `--baseline`. -/
def Made.npars (other : ℕ → ℕ) : Made → ℕ
  | .poly d => d + 1
  | .nano => 2
  | .seq _ => 0
  | .evaluated n => other n

/-- Truth value of a text option: `None` and the empty text are false. -/
def given (s : Option (List Char)) : Bool := match s with | none => false | some t => !t.isEmpty

/-- What the program needs from outside: `float`; `-4 * np.pi * v`; `eval` of `--baseline` (any exception is `none`);
whether `FromSequence(file)` can be made (and the exception otherwise). -/
structure Env (K : Type) where
  float : List Char → Option K
  crystal : K → K
  evalBaseline : List Char → Option ℕ
  sequence : List Char → Res Unit

/-- How choosing the baseline ends: a baseline, an exception, or the program prints a message and returns. -/
inductive Step (α : Type)
  | go (a : α)
  | raises (e : Err)
  | exits

/-- `parsepars` and `actualize(pars, "internal", free=free)` of a function whose internal parameters are stored as they
are; the number of texts is right by `nargs`. -/
def partOf (E : Env K) (f : Made) (ps : List (List Char)) : Step (Chosen Made K) :=
  match parsepars E.float ps with
  | .error e => .raises e
  | .ok (pars, free) => .go (.part f pars free)

/-- `options.baseline.pars[0] = -4 * np.pi * options.baseline.pars[0]` — extract.py:485. -/
def scaleFirst (g : K → K) : Step (Chosen Made K) → Step (Chosen Made K)
  | .go (.part f (p :: ps) free) => .go (.part f (g p :: ps) free)
  | s => s

/-- The choice of the baseline — extract.py:480-537.  `--bsrmise` reads a .srmise file: `read` never returns
(`Verif.Text.c78_read`), what it raises is TypeError. -/
def chooseBaseline (E : Env K) (o : Options K) : Step (Chosen Made K) :=
  if given o.bcrystal then scaleFirst E.crystal (partOf E (.poly 1) [o.bcrystal.getD [], ['0', 'c']])
  else if given o.bsrmise then .raises .type
  else if given o.bpoly0 then partOf E (.poly 0) [o.bpoly0.getD []]
  else match o.bpoly1 with
  | some (a, b) => partOf E (.poly 1) [a, b]
  | none =>
    match o.bpoly2 with
    | some (a, b, c) => partOf E (.poly 2) [a, b, c]
    | none =>
      if given o.bseq then
        match E.sequence (o.bseq.getD []) with
        | .error e => .raises e
        | .ok () => .go (.part (.seq (o.bseq.getD [])) [] [])
      else match o.bspherical with
        | some (a, b) => partOf E .nano [a, b]
        | none =>
          match o.baseline with
          | none => .go .nothing
          | some s =>
            match E.evalBaseline s with
            | none => .exits
            | some n => .go (.func (.evaluated n))

/-- Truth value of `options.baseline` — extract.py:551.  A `Baseline` has a length, its number of parameters
(modelparts.py:727-729), and is false if that is 0; a function has none and is true. -/
def Chosen.truthy (other : ℕ → ℕ) : Chosen Made K → Bool
  | .nothing => false
  | .func _ => true
  | .part f _ _ => decide (f.npars other ≠ 0)

/-! ### Loading the data -/

/-- `clear()` of a `PDFPeakExtraction` and of a `PeakExtraction` — pdfpeakextraction.py:106-121,
peakextraction.py:96-113. -/
def cleared : PPX K := {}

/-- `loadpdf(pdf)` — pdfpeakextraction.py:73-90, for the data set read; `findQmax` is `find_qmax(x, y)[0]`, whose
exceptions are swallowed — pdfpeakextraction.py:92-105. -/
def loadpdf [Zero K] (findQmax : List K → List K → Option K) (d : DataSet.DS K) : Res Unit × PPX K :=
  match setdata (cleared : PPX K).base d.robs d.gobs (some d.drobs) (some d.dgobs) with
  | (.error e, b) => (.error e, { (cleared : PPX K) with base := b })
  | (.ok (), b) => (.ok (), { (cleared : PPX K) with base := b, qmaxFromData := findQmax d.robs d.gobs, qmaxReported := some d.qmax })

/-! ### The variables -/

section

variable [Field K] [LinearOrder K]

/-- `options.dg_mode` after extract.py:555-561. -/
def dgMode (o : Options K) (dy : Option (List K)) : DgMode :=
  match o.dgMode with
  | some m => m
  | none =>
    if o.dg.any (fun v => decide (v ≠ 0)) then .absolute
    else match dy with
      | none => .maxFraction
      | some _ => .dGFraction

/-- `dg_defaults` — extract.py:124-130. -/
def dgDefault : DgMode → Option K
  | .absolute => none
  | .data => none
  | .maxFraction => some (5 / 100)
  | .ptpFraction => some (5 / 100)
  | .dGFraction => some 1

/-- `max(l)`; ValueError on an empty array. -/
def maxOf (l : List K) : Res K :=
  match l with
  | [] => .error .value
  | a :: as => .ok (as.foldl max a)

/-- `effective_dy` — extract.py:562-571: `None` times an array is TypeError; the mode `data` sets nothing.  (`ptp` as a
method of arrays exists in numpy 1 only; later it is AttributeError, which is not modelled.) -/
def effectiveDy (o : Options K) (x y : List K) (dy : Option (List K)) : Res (Option (List K)) :=
  let mode := dgMode o dy
  let dg := o.dg.or (dgDefault mode)
  match mode, dg with
  | .data, _ => .ok none
  | _, none => .error .type
  | .absolute, some v => .ok (some (x.map (fun _ => v)))
  | .maxFraction, some v => (maxOf y).map (fun w => some (x.map (fun _ => v * w)))
  | .ptpFraction, some v => (spread y).map (fun w => some (y.map (fun _ => v * w)))
  | .dGFraction, some v =>
    match dy with
    | none => .error .type
    | some l => .ok (some (l.map (fun u => v * u)))

/-- The value of `--qmax` — extract.py:574-575. -/
def qmaxArg (E : Env K) (o : Options K) : Res (Option (QArg K)) :=
  if given o.qmax then
    if o.qmax = some "automatic".toList then .ok (some .automatic)
    else match E.float (o.qmax.getD []) with
      | none => .error .value
      | some v => .ok (some (.value (some v)))
  else .ok none

/-- A number option is true if given and not zero. -/
def nonzero (v : Option K) : Option K := v.filter (fun a => decide (a ≠ 0))

/-- `pdict`, in the order of insertion — extract.py:548-583.  `bid` is the identity of the chosen baseline. -/
def pdict (E : Env K) (o : Options K) (other : ℕ → ℕ) (bl : Chosen Made K) (bid : Chosen Made K → Base)
    (x y : List K) (dy : Option (List K)) : Res (List (PKw K)) :=
  match effectiveDy o x y dy with
  | .error e => .error e
  | .ok eff =>
    match qmaxArg E o with
    | .error e => .error e
    | .ok q =>
      .ok ((if bl.truthy other then [.base (.baseline (some (bid bl)))] else []) ++
        ((nonzero o.cres).toList.map (fun c => .base (.cres (some c)))) ++
        (eff.toList.map (fun l => .base (.effective_dy (.array l)))) ++
        (o.rng.toList.map (fun r => .base (.rng (some (some r.1, some r.2))))) ++
        (q.toList.map .qmax) ++
        (if o.nyquist = some true then [.nyquist (some true)] else []) ++
        ((nonzero o.supersample).toList.map .supersample) ++
        (if o.scale = some true then [.scale (some true)] else []))

/-- The names that can be read where the options are evaluated: the globals of the module, the local variables of
`main` and those it imports — extract.py:15-20, 22, 38, 619, 645; builtins are left out (`peaks` and
`modelevaluators` are none). -/
def namesInScope : List String :=
  ["textwrap", "IndentedHelpFormatter", "OptionGroup", "OptionParser", "plt", "np", "_baseline_namespace", "main",
   "parsepars", "IndentedHelpFormatterWithNL", "usage", "__version__", "version", "descr", "epilog", "parser",
   "dg_defaults", "group", "options", "args", "srmiselog", "PDFPeakExtraction", "SrMiseDataFormatError",
   "SrMiseFileError"]

/-- `eval("name." + text)` — extract.py:446, 466: reading the name comes first.  Simplification: texts for which Python
never reads the name (`x if False else y`) are left out. -/
def evalAttribute (name : String) (ev : List Char → Res ℕ) (text : List Char) : Res ℕ :=
  if name ∈ namesInScope then ev text else .error .name

/-- How the program ends before the extraction, or the state at that point. -/
inductive Outcome (K : Type)
  | usage
  | exits
  | raises (e : Err)
  | nothing
  | ready (s : PPX K) (extract : Bool)

/-- The files and evaluations: `read` of a .srmise file, the data set in a PDF file, the evaluation of `--pf` and
`--me` once the name is found. -/
structure World (K : Type) where
  env : Env K
  other : ℕ → ℕ
  bid : Chosen Made K → Base
  read : List Char → Res (PPX K)
  pdf : List Char → Res (DataSet.DS K)
  findQmax : List K → List K → Option K
  evalPf : List Char → Res ℕ
  evalMe : List Char → Res ℕ
  pi : K
  defaults : Defaults K

/-- `ext.read(filename)`, and `ext.loadpdf(filename)` whatever it raises — extract.py:541-546. -/
def load (W : World K) (file : List Char) : Res (PPX K) :=
  match W.read file with
  | .ok s => .ok s
  | .error _ =>
    match W.pdf file with
    | .error e => .error e
    | .ok d =>
      match loadpdf W.findQmax d with
      | (.error e, _) => .error e
      | (.ok (), s) => .ok s

/-- From the data to `setvars` — extract.py:548-590; `pf` and `me` are the evaluated options. -/
def configure (W : World K) (o : Options K) (pf me : Option ℕ) (bl : Chosen Made K) (s : PPX K) : Outcome K :=
  match s.base.x, s.base.y with
  | some x, some y =>
    match pdict W.env o W.other bl W.bid x y s.base.dy with
    | .error e => .raises e
    | .ok kws =>
      match psetvars W.pi W.defaults s ((pf.toList.map (fun i => .base (.pf (some i)))) ++ kws ++
          (me.toList.map (fun i => .base (.error_method (some i))))) with
      | (.error e, _) => .raises e
      | (.ok (), s') => .ready s' o.performextraction
  | _, _ => .raises .type

/-- An option that is evaluated: absent, or its value, or the program prints a message and returns —
extract.py:444-478. -/
def evalOption (name : String) (ev : List Char → Res ℕ) (s : Option (List Char)) : Step (Option ℕ) :=
  if given s then
    match evalAttribute name ev (s.getD []) with
    | .error _ => .exits
    | .ok i => .go (some i)
  else .go none

/-- `main()` — extract.py:434-590. -/
def main (W : World K) (o : Options K) (args : List (List Char)) : Outcome K :=
  match args with
  | [file] =>
    match evalOption "peaks" W.evalPf o.peakfunction with
    | .raises e => .raises e
    | .exits => .exits
    | .go pf =>
      match evalOption "modelevaluators" W.evalMe o.modelevaluator with
      | .raises e => .raises e
      | .exits => .exits
      | .go me =>
        match chooseBaseline W.env o with
        | .raises e => .raises e
        | .exits => .exits
        | .go bl =>
          if file.isEmpty then .nothing
          else match load W file with
            | .error e => .raises e
            | .ok s => configure W o pf me bl s
  | _ => .usage

end

end Verif.App
