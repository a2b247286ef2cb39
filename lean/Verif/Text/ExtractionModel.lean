import Verif.Text.ClusterModel

/-!
# Model of the text form of a `PeakExtraction` (`src/diffpy/srmise/peakextraction.py:306-706`)

`read`, `readstr`, `write`, `writestr`.  Texts are lists of characters; the texts of numbers (`%g`), of the time and user,
and of a base function with its list (`fnText`) are arguments.
-/

namespace Verif.Text

open Verif.Py Verif.Parts

open Verif.Pdf (splitLines)

variable {K V : Type}

/-- What is used of a `PeakExtraction`.  Functions are identities; `baseline` is a part or a function; `rng`, `etype` are
`repr`s; `metadata` is what `writemetadata` returns, `none` in the base class.  Simplification: `effective_dy` is an array. -/
structure Px (K : Type) where
  pf : Option (List ℕ) := none
  initialPeaks : Option (List (Part K)) := none
  baseline : Option (Part K ⊕ ℕ) := none
  cres : Option K := none
  method : Option (List Char) := none
  rng : List Char := "None".toList
  metadata : Option (List Char) := none
  x : Option (List K) := none
  y : Option (List K) := none
  dx : Option (List K) := none
  dy : Option (List K) := none
  edy : Option (List K) := none
  etype : List Char := "None".toList
  extracted : Option (Mc K) := none

/-- `allpf` — peakextraction.py:591-605; `extend(None)` is TypeError. -/
def allPf (p : Px K) : Res (List ℕ) :=
  let own := p.pf.getD [] ++ (p.initialPeaks.getD []).map (fun q => q.owner.id)
  match p.extracted with
  | none => .ok own
  | some m =>
    match m.funcs with
    | none => .error .type
    | some fs => .ok (own ++ fs ++ m.model.map (fun q => q.owner.id))

/-- `allbf` — peakextraction.py:595-607. -/
def allBf (p : Px K) : List ℕ :=
  (match p.baseline with | none => [] | some (.inl b) => [b.owner.id] | some (.inr f) => [f]) ++
  (match p.extracted with | none => [] | some m => match m.baseline with | none => [] | some b => [b.owner.id])

/-- Indexed functions — peakextraction.py:613-623. -/
def fnLines (fnText : List (Owner K) → Owner K → Res (List Char)) (label : List Char) (all : List (Owner K)) :
    ℕ → List (Owner K) → Res (List (List Char))
  | _, [] => .ok []
  | i, f :: fs =>
    match fnText all f with
    | .error e => .error e
    | .ok t =>
      match fnLines fnText label all (i + 1) fs with
      | .error e => .error e
      | .ok ts => .ok ((label ++ reprNat i) :: t :: ts)

/-- The baseline — peakextraction.py:626-632. -/
def pxBaselineText (P : Python K V) (bf : List (Owner K)) : Option (Part K ⊕ ℕ) → Res (List Char)
  | none => .ok "None".toList
  | some (.inl b) => writestr P b bf
  | some (.inr f) => match ownerIndex bf f with | none => .error .attribute | some i => .ok (reprNat i)

/-- The initial peaks, each after its marker — peakextraction.py:639-641. -/
def pxPeaksText (P : Python K V) (pf : List (Owner K)) : List (Part K) → Res (List (List Char))
  | [] => .ok []
  | p :: ps =>
    match writestr P p pf with
    | .error e => .error e
    | .ok t =>
      match pxPeaksText P pf ps with
      | .error e => .error e
      | .ok ts => .ok ("# InitialPeak".toList :: t :: ts)

/-- The initial peaks — peakextraction.py:635-641. -/
def pxInitialText (P : Python K V) (pf : List (Owner K)) : Option (List (Part K)) → Res (List (List Char))
  | none => .ok ["None".toList]
  | some ps => pxPeaksText P pf ps

/-- The columns there are, with their names, in order — peakextraction.py:666-682. -/
def pxColumns (p : Px K) : List (List Char × List K) :=
  [("x".toList, p.x), ("y".toList, p.y), ("dx".toList, p.dx), ("dy".toList, p.dy), ("edy".toList, p.edy)].filterMap
    (fun (n, c) => c.map (fun l => (n, l)))

/-- Line `i` of the data — peakextraction.py:684-696. -/
def pxRow (fmt : K → List Char) (cols : List (List Char × List K)) (i : ℕ) : Res (List Char) :=
  match cols.mapM (fun c => c.2[i]?) with
  | none => .error .index
  | some vs => .ok (join [' '] (vs.map fmt))

/-- The data lines: as many as the last column has values — peakextraction.py:666-696. -/
def pxRows (fmt : K → List Char) (cols : List (List Char × List K)) : List ℕ → Res (List (List Char))
  | [] => .ok []
  | i :: is =>
    match pxRow fmt cols i with
    | .error e => .error e
    | .ok t =>
      match pxRows fmt cols is with
      | .error e => .error e
      | .ok ts => .ok (t :: ts)

/-- `numlines` — peakextraction.py:667-682. -/
def numLines (cols : List (List Char × List K)) : ℕ := (cols.getLast?.map (fun c => c.2.length)).getD 0

/-- The cluster — peakextraction.py:703-706. -/
def pxClusterText (P : Python K V) (fmt : K → List Char) (pf bf : List (Owner K)) : Option (Mc K) → Res (List Char)
  | none => .ok "None".toList
  | some m => mcWritestr P fmt m pf bf

/-- `writestr()` — peakextraction.py:561-708.  `safe` is `safefunctionlist(list(set(...)))`, `header` the four lines with
time, user and version. -/
def pxWritestr (P : Python K V) (fmt : K → List Char) (safe : List ℕ → List (Owner K))
    (fnText : List (Owner K) → Owner K → Res (List Char)) (header : List (List Char)) (p : Px K) : Res (List Char) :=
  match allPf p with
  | .error e => .error e
  | .ok ids =>
    let pf := safe ids
    let bf := safe (allBf p)
    match fnLines fnText "# BaselineFunction ".toList bf 0 bf with
    | .error e => .error e
    | .ok bl =>
      match fnLines fnText "# PeakFunction ".toList pf 0 pf with
      | .error e => .error e
      | .ok pl =>
        match pxBaselineText P bf p.baseline with
        | .error e => .error e
        | .ok bt =>
          match pxInitialText P pf p.initialPeaks with
          | .error e => .error e
          | .ok it =>
            match funcsText pf p.pf with
            | .error e => .error e
            | .ok ft =>
              match p.cres with
              | none => .error .type
              | some c =>
                let cols := pxColumns p
                match pxRows fmt cols (List.range (numLines cols)) with
                | .error e => .error e
                | .ok rows =>
                  match pxClusterText P fmt pf bf p.extracted with
                  | .error e => .error e
                  | .ok mt =>
                    match p.metadata with
                    | none => .error .type
                    | some md => .ok (join ['\n'] (header ++ ["## BaselineFunctions".toList] ++ bl ++ ["## PeakFunctions".toList] ++ pl ++
                        ["# BaselineObject".toList, bt, "## InitialPeaks".toList] ++ it ++ ["# SrMiseMetadata".toList,
                        "pf=".toList ++ ft, "cres=".toList ++ fmt c, "ModelEvaluator=".toList ++ p.method.getD "None".toList,
                        "Range=".toList ++ p.rng, "# Metadata".toList, md, "##### start data".toList,
                        join [' '] ("#L".toList :: cols.map Prod.fst)] ++ rows ++ ["##### Results".toList,
                        "extraction_type=".toList ++ p.etype, "### ModelCluster".toList, mt]) ++ ['\n'])

/-! ### Reading -/

/-- What `readstr` is given. -/
inductive Input
  | str (t : List Char)
  | bytes (b : List ℕ)

/-- What `re.error` is here. -/
def Err.regex : Err := .other 2

/-- `readstr(datastring)` with the object after it — peakextraction.py:330-394.  A pattern that is a `str` cannot be used on
`bytes` (TypeError); `header` and `start_data_info` are not assigned when their sections are not found; `\edy\b` is not a
regular expression (unknown escapes of letters are errors since Python 3.7).  What follows line 390 cannot be reached. -/
def readstr (_ : Px K) : Input → Res Unit × Px K
  | .bytes _ => (.error .type, {})
  | .str t =>
    match cut "Results".toList (splitLines t) with
    | none => (.error .name, {})
    | some (header, _) =>
      match cut "start data".toList header with
      | none => (.error .name, {})
      | some _ => (.error Err.regex, {})

/-- `read(filename)` — peakextraction.py:306-327: the file is opened in binary mode; only SrMiseDataFormatError is turned into
SrMiseFileError (`other 3`).  `file` is the contents, `none` if the file cannot be opened (`other 4`, OSError). -/
def read (p : Px K) (file : Option (List ℕ)) : Res Unit × Px K :=
  match file with
  | none => (.error (.other 4), p)
  | some b =>
    match readstr p (.bytes b) with
    | (.error .dataFormat, q) => (.error (.other 3), q)
    | r => r

end Verif.Text
