import Verif.Text.ExtractionModel
import Mathlib.Data.List.Sort

/-!
# Model of the summary of the extracted peaks (`src/diffpy/srmise/pdfpeakextraction.py:722-932`)

`writepwastr` and `writepwa`.  Texts are lists of characters; what Python writes for a number, for the values of the PDF
metadata and for the quality of the model are arguments.
-/

namespace Verif.Text

open Verif.Py Verif.Parts

open Verif.Pdf (MetaField splitLines)

variable {K : Type}

/-- What the texts in a summary depend on: `time.ctime()`, `getuser()`, the version, the values of the PDF metadata,
`quality().stat`, `getmodule()` and `base` of a function (by identity), `str` and `"%g"` of a number, `np.mean`. -/
structure Pwa (K : Type) where
  time : List Char
  user : List Char
  version : List Char
  pdf : MetaField → List Char
  quality : Res (List Char)
  moduleOf : ℕ → List Char
  baseOf : ℕ → Option ℕ
  str : K → List Char
  fmt : K → List Char
  mean : List K → K

/-- `SrMiseError`. -/
def Err.srmise : Err := .other 5

/-- `self.baseline.npars(count_fixed=False)` — pdfpeakextraction.py:828-831; `npars` of a function is a number, and calling
it is TypeError. -/
def baselineFree : Option (Part K ⊕ ℕ) → Res ℕ
  | none => .ok 0
  | some (.inl b) => .ok (b.npars false)
  | some (.inr _) => .error .type

/-- The text about the base of a function — pdfpeakextraction.py:870-873, 902-905; `index` of a function that is not in the
list is ValueError. -/
def pwaBaseText (W : Pwa K) (all : List (Owner K)) (f : Owner K) : Res (List Char) :=
  match W.baseOf f.id with
  | none => .ok []
  | some b =>
    match ownerIndex all b with
    | none => .error .value
    | some j => .ok ("(base=".toList ++ reprNat j ++ ")".toList)

/-- Lines with index, module and base of the functions — pdfpeakextraction.py:869-874, 901-906. -/
def pwaFnLines (W : Pwa K) (all : List (Owner K)) : ℕ → List (Owner K) → Res (List (List Char))
  | _, [] => .ok []
  | i, f :: fs => do
    let b ← pwaBaseText W all f
    let ls ← pwaFnLines W all (i + 1) fs
    pure ((reprNat i ++ ' ' :: (W.moduleOf f.id ++ ' ' :: b)) :: ls)

/-- The names of the parameters in the order of their indices — pdfpeakextraction.py:888-890. -/
def parLabels (o : Owner K) : List (List Char) :=
  (o.dict.insertionSort (fun a b => a.2 ≤ b.2)).map (fun e => e.1.toList)

/-- The baseline — pdfpeakextraction.py:881-896. -/
def pwaBaseline (W : Pwa K) (bf : List (Owner K)) : Option (Part K) → Res (List (List Char))
  | none => .ok ["None".toList]
  | some b =>
    match ownerIndex bf b.owner.id with
    | none => .error .value
    | some i =>
      if 0 < b.owner.npars then
        .ok ["# ".toList ++ join [' '] (parLabels b.owner), join [' '] (b.pars.map W.str) ++ " # ".toList ++ reprNat i]
      else .ok ["(no parameters)".toList ++ " # ".toList ++ reprNat i]

/-- `pwa[pf.parameterdict[name]]` — pdfpeakextraction.py:919-923. -/
def pwaPar (o : Owner K) (q : List K) (name : String) : Res K :=
  match o.dict.lookup name with
  | none => .error .key
  | some i => match q[i]? with | none => .error .index | some v => .ok v

/-- The line of a peak — pdfpeakextraction.py:916-923. -/
def pwaPeak (W : Pwa K) (pf : List (Owner K)) (p : Part K) : Res (List Char) := do
  let q ← p.owner.transform p.pars (some "internal") (some "pwa")
  let a ← pwaPar p.owner q "position"
  let b ← pwaPar p.owner q "width"
  let c ← pwaPar p.owner q "area"
  match ownerIndex pf p.owner.id with
  | none => .error .value
  | some i => pure (W.str a ++ ' ' :: (W.str b ++ ' ' :: (W.str c ++ ' ' :: ('#' :: ' ' :: reprNat i))))

/-- The lines of the peaks — pdfpeakextraction.py:915-923. -/
def pwaPeaks (W : Pwa K) (pf : List (Owner K)) : List (Part K) → Res (List (List Char))
  | [] => .ok []
  | p :: ps => do
    let l ← pwaPeak W pf p
    let ls ← pwaPeaks W pf ps
    pure (l :: ls)

/-- Header, comments, metadata — pdfpeakextraction.py:770-808. -/
def pwaHead (W : Pwa K) (comments : List Char) : List (List Char) :=
  ["Summary written: ".toList ++ W.time, "produced by ".toList ++ W.user, "diffpy.srmise version ".toList ++ W.version,
    "##### User comments".toList] ++ (splitlines comments).map (fun c => "# ".toList ++ c) ++
  ["##### PDF Peak Extraction Summary".toList, "# The information below is not sufficient to replicate extraction.".toList,
    "## PDF metadata".toList] ++ MetaField.all.map (fun f => f.name ++ '=' :: W.pdf f) ++ [[]]

/-- Range, resolution, uncertainty, quality — pdfpeakextraction.py:797-840. -/
def pwaModel (W : Pwa K) (p : Px K) (m : Mc K) (c : K) (e : List K) (quality : List Char) (nbl : ℕ) : List (List Char) :=
  ["## Peak extraction metadata".toList, "Range=".toList ++ p.rng, "cres=".toList ++ W.fmt c,
    "effective_dy=".toList ++ W.str (W.mean e) ++ " (mean)".toList, [], "## Model Quality".toList,
    "# Quality reported by ModelEvaluator: ".toList ++ quality,
    "# Free parameters in extracted peaks: ".toList ++ reprNat (npars m.model false),
    "# Free parameters in baseline: ".toList ++ reprNat nbl,
    "# Length of data in final fit: ".toList ++ reprNat m.r.length,
    "ModelEvaluator=".toList ++ p.method.getD "None".toList, []]

/-- `lines` at the end — pdfpeakextraction.py:757-923.  `safe` is `safefunctionlist(list(set(...)))`. -/
def pwaLines (W : Pwa K) (safe : List ℕ → List (Owner K)) (p : Px K) (comments : List Char) : Res (List (List Char)) :=
  match p.extracted with
  | none => .error Err.srmise
  | some m => do
    let c ← (match p.cres with | none => .error .type | some c => .ok c)
    let e ← (match p.edy with | none => .error .type | some e => .ok e)
    let quality ← W.quality
    let nbl ← baselineFree p.baseline
    let ids ← allPf p
    let bfl ← pwaFnLines W (safe (allBf p)) 0 (safe (allBf p))
    let bll ← pwaBaseline W (safe (allBf p)) m.baseline
    let pfl ← pwaFnLines W (safe ids) 0 (safe ids)
    let pl ← pwaPeaks W (safe ids) m.model
    pure (pwaHead W comments ++ pwaModel W p m c e quality nbl ++ ["## Baseline Functions".toList, "# Index Type".toList] ++ bfl ++
      [[], "## Baseline".toList, "# Parameters of baseline, followed by comment which".toList,
        "# gives the index of corresponding Baseline Function.".toList] ++ bll ++
      [[], "## Peak Functions".toList, "# Index Type".toList] ++ pfl ++
      [[], "## Extracted Peaks".toList, "# Parameters are given in the natural units of the data,".toList,
        "# where width is measured as full-width at half maximum.".toList,
        "# Each line is followed by a comment which gives the index".toList,
        "# of the corresponding Peak Function.".toList, "#L position fwhm area".toList] ++ pl)

/-- `writepwastr(comments)` — pdfpeakextraction.py:743-926. -/
def writepwastr (W : Pwa K) (safe : List ℕ → List (Owner K)) (p : Px K) (comments : List Char) : Res (List Char) := do
  let ls ← pwaLines W safe p comments
  pure (join ['\n'] ls ++ ['\n'])

/-- `writepwa(filename, comments)` with the contents of the file (`none`: there is no such file) after it —
pdfpeakextraction.py:722-741.  `writable`: the file can be opened for writing; if not, OSError. -/
def writepwa (W : Pwa K) (safe : List ℕ → List (Owner K)) (p : Px K) (comments : List Char) (writable : Bool)
    (file : Option (List Char)) : Res Unit × Option (List Char) :=
  match writepwastr W safe p comments with
  | .error e => (.error e, file)
  | .ok t => if writable then (.ok (), some t) else (.error (.other 4), file)

end Verif.Text
