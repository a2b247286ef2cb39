import Verif.PdfExtract.Model
import Verif.Pdf.ResetModel
import Verif.App.Model
import Verif.Stability.Model

/-!
# Model of a sequence of calls on a `PDFPeakExtraction`
(`src/diffpy/srmise/pdfpeakextraction.py:73-121`, `src/diffpy/srmise/peakextraction.py:96-138, 732-814`)

The caller catches exceptions and goes on.
-/

namespace Verif.Parts.History

open Verif.Py Verif.Extraction Verif.Pdf Verif.Parts.Extract Verif.Parts.ModelCluster Verif.Parts.PdfExtract

variable {K : Type}

/-- The public calls. `load` has what reading the file gives. -/
inductive Cmd (K : Type)
  | clear
  | clearcalc
  | load (d : Res (DataSet.DS K))
  | setdata (x y : List K) (dx dy : Option (List K))
  | setvars (kws : List (PKw K))
  | defaults (names : List String)
  | extract
  | fit
  | add (ps : List (Part K))
  | estimate (v : K) (add : Bool)

/-- A call, with the defaults as the code makes them at this call, and the objects behind `baseline`, `initial_peaks`, `pf`
after it, which may be anything: the calls and the caller may change them. -/
structure Call (K : Type) where
  cmd : Cmd K
  D : Defaults K
  after : Heap K

/-- `setdata(x, y, dx, dy)` — pdfpeakextraction.py:92-105: a failure of `find_qmax` leaves the old value. -/
def pdfSetdata [Zero K] (findQmax : List K → List K → Option K) (s : PPX K) (x y : List K) (dx dy : Option (List K)) :
    Res Unit × PPX K :=
  match Extraction.setdata s.base x y dx dy with
  | (.error e, b) => (.error e, { s with base := b })
  | (.ok (), b) => (.ok (), { s with base := b, qmaxFromData := (findQmax x y).orElse (fun _ => s.qmaxFromData) })

/-- `loadpdf(pdf)` — pdfpeakextraction.py:73-90, when the file can be read: `clear`, `setdata`, the reported qmax. -/
def loaded [Zero K] (findQmax : List K → List K → Option K) (d : DataSet.DS K) : Res Unit × PPX K :=
  match pdfSetdata findQmax App.cleared d.robs d.gobs (some d.drobs) (some d.dgobs) with
  | (.error e, s) => (.error e, s)
  | (.ok (), s) => (.ok (), { s with qmaxReported := some d.qmax })

section

variable [Field K] [LinearOrder K]

/-- `add_peaks(peaks)` — peakextraction.py:799-814: `setvars` sets the defaults first if `initial_peaks` is not set. -/
def addTo (W : World K) (pi : K) (D : Defaults K) (o : PObj K) (ps : List (Part K)) : Res Unit × PObj K :=
  match o.extracted, o.vars.base.initialPeaks with
  | none, none =>
    match pdefaultvars pi D o.vars with
    | (.error e, s) => (.error e, { o with vars := s })
    | (.ok (), s) =>
      match addPeaks W ⟨s.base, o.heap, none⟩ ps with
      | (r, b) => (r, { o with vars := s, heap := b.heap })
  | x, _ =>
    match addPeaks W ⟨o.vars.base, o.heap, x⟩ ps with
    | (r, b) => (r, { o with heap := b.heap, extracted := b.extracted })

/-- `estimate_peak(x, add)` — peakextraction.py:732-797, with the `defaultvars` of this class. -/
def estimateIn (W : World K) (pi : K) (D : Defaults K) (o : PObj K) (v : K) (add : Bool) : Res Unit × PObj K :=
  match pdefaultvars pi D o.vars with
  | (.error e, s) => (.error e, { o with vars := s })
  | (.ok (), s) =>
    let o := { o with vars := s }
    match nearFit W ⟨s.base, o.heap, o.extracted⟩ v with
    | .error e => (.error e, o)
    | .ok [] => (.ok (), o)
    | .ok (p :: ps) => if add then addTo W pi D o (p :: ps) else (.ok (), o)

/-- The variables after a call that only changes them. -/
def withVars (o : PObj K) (r : Res Unit × PPX K) : Res Unit × PObj K := (r.1, { o with vars := r.2 })

/-- One call; `none`: an extraction is not finished after `n` resamplings. -/
def perform (W : World K) (S : Sampler K) (findQmax : List K → List K → Option K) (n : ℕ) (D : Defaults K) (o : PObj K) :
    Cmd K → Option (Res Unit × PObj K)
  | .clear => some (.ok (), { o with vars := App.cleared, extracted := none, kind := none })
  | .clearcalc => some (.ok (), Stability.clearcalc o)
  | .load (.error e) => some (.error e, { o with vars := App.cleared, extracted := none, kind := none })
  | .load (.ok d) => some (withVars { o with extracted := none, kind := none } (loaded findQmax d))
  | .setdata x y dx dy => some (withVars o (pdfSetdata findQmax o.vars x y dx dy))
  | .setvars kws => some (withVars o (psetvars S.pi D o.vars kws))
  | .defaults names => some (withVars o (presetvars S.pi D names o.vars))
  | .extract => PdfExtract.extract W S D n o
  | .fit => some (PdfExtract.fit W S D o)
  | .add ps => some (addTo W S.pi D o ps)
  | .estimate v add => some (estimateIn W S.pi D o v add)

/-- The objects after a call are arbitrary. -/
def withHeap (H : Heap K) (p : Res Unit × PObj K) : Res Unit × PObj K := (p.1, { p.2 with heap := H })

/-- A call and its outcome. -/
def doCall (W : World K) (S : Sampler K) (findQmax : List K → List K → Option K) (n : ℕ) (c : Call K) (o : PObj K) :
    Option (Res Unit × PObj K) := (perform W S findQmax n c.D o c.cmd).map (withHeap c.after)

/-- A sequence of calls. -/
def run (W : World K) (S : Sampler K) (findQmax : List K → List K → Option K) (n : ℕ) : List (Call K) → PObj K → Option (PObj K)
  | [], o => some o
  | c :: cs, o =>
    match doCall W S findQmax n c o with
    | none => none
    | some (_, o') => run W S findQmax n cs o'

/-- A new object — pdfpeakextraction.py:67-71. -/
def fresh (H : Heap K) : PObj K := ⟨App.cleared, H, none, none⟩

end

end Verif.Parts.History
