import Verif.Text.Model
import Verif.Pdf.VarsModel

/-!
# Model of the text form of a `ModelCluster` (`src/diffpy/srmise/modelcluster.py`)

`writestr` and `factory` with the lists of functions given (`pfbaselist`, `blfbaselist`), which is how
`PeakExtraction.writestr` and `readstr` call them.  The regular expressions are modelled by lines.
-/

namespace Verif.Text

open Verif.Py Verif.Parts

open Verif.Pdf (splitLines)

variable {K V E : Type}

/-- What is used of a cluster: peaks, baseline, the functions (`None` or a list of identities), the name of the evaluator
class (`None` if there is none), `repr` of the slice, the data — modelcluster.py:466-508. -/
structure Mc (K : Type) where
  model : List (Part K)
  baseline : Option (Part K)
  funcs : Option (List ℕ)
  method : Option (List Char)
  slice : List Char
  r : List K
  y : List K
  err : List K

/-- `[pfbaselist.index(p) for p in self.peak_funcs]` — modelcluster.py:567; an unknown function is ValueError. -/
def funcIndices (pf : List (Owner K)) : List ℕ → Res (List ℕ)
  | [] => .ok []
  | f :: fs =>
    match ownerIndex pf f with
    | none => .error .value
    | some i =>
      match funcIndices pf fs with
      | .error e => .error e
      | .ok is => .ok (i :: is)

/-- The text of `peak_funcs` — modelcluster.py:564-567. -/
def funcsText (pf : List (Owner K)) : Option (List ℕ) → Res (List Char)
  | none => .ok "None".toList
  | some fs => (funcIndices pf fs).map (fun is => listText (is.map reprNat))

/-- The baseline — modelcluster.py:589-593. -/
def baselineText (P : Python K V) (blf : List (Owner K)) : Option (Part K) → Res (List Char)
  | none => .ok "None".toList
  | some b => writestr P b blf

/-- The peaks, each after its marker — modelcluster.py:599-601. -/
def peaksText (P : Python K V) (pf : List (Owner K)) : List (Part K) → Res (List (List Char))
  | [] => .ok []
  | p :: ps =>
    match writestr P p pf with
    | .error e => .error e
    | .ok t =>
      match peaksText P pf ps with
      | .error e => .error e
      | .ok ts => .ok ("# ModelPeak".toList :: t :: ts)

/-- The data, `"%g %g %g"` in each line — modelcluster.py:606-607; shorter arrays would be IndexError.  `fmt` is `"%g" % x`. -/
def dataText (fmt : K → List Char) : List K → List K → List K → Res (List (List Char))
  | [], _, _ => .ok []
  | a :: r, b :: y, c :: e =>
    match dataText fmt r y e with
    | .error x => .error x
    | .ok ts => .ok ((fmt a ++ ' ' :: (fmt b ++ ' ' :: fmt c)) :: ts)
  | _ :: _, _, _ => .error .index

/-- `ModelCluster.writestr(pfbaselist=pf, blfbaselist=blf)` — modelcluster.py:533-610. -/
def mcWritestr (P : Python K V) (fmt : K → List Char) (c : Mc K) (pf blf : List (Owner K)) : Res (List Char) :=
  match funcsText pf c.funcs with
  | .error e => .error e
  | .ok ft =>
    match baselineText P blf c.baseline with
    | .error e => .error e
    | .ok bt =>
      match peaksText P pf c.model with
      | .error e => .error e
      | .ok pt =>
        match dataText fmt c.r c.y c.err with
        | .error e => .error e
        | .ok dt =>
          .ok (join ['\n'] (["peak_funcs=".toList ++ ft, "ModelEvaluator=".toList ++ c.method.getD "None".toList,
            "slice=".toList ++ c.slice, "# BaselineObject".toList, bt, "## ModelPeaks".toList] ++ pt ++
            ["### start data".toList, "#L r y dy".toList] ++ dt) ++ ['\n'])

/-! ### Reading -/

/-- `^#+ name` at the start of a line: the rest of the line. -/
def afterMarker (name : List Char) (l : List Char) : Option (List Char) :=
  match l with
  | '#' :: _ =>
    if (' ' :: name).isPrefixOf (l.dropWhile (fun c => decide (c = '#'))) then
      some ((l.dropWhile (fun c => decide (c = '#'))).drop (name.length + 1))
    else none
  | _ => none

/-- The first line with the marker: the lines before it, and the rest of that line with the lines after it. -/
def cut (name : List Char) : List (List Char) → Option (List (List Char) × List (List Char))
  | [] => none
  | l :: ls =>
    match afterMarker name l with
    | some rest => some ([], rest :: ls)
    | none => (cut name ls).map (fun (a, b) => (l :: a, b))

/-- `\s*(?:#.*\s+)*`: the comment lines skipped, and what follows.  Simplification: a comment that is the end of the text is
skipped too. -/
def skipComments : List (List Char) → List (List Char) × List (List Char)
  | [] => ([], [])
  | l :: ls =>
    match l.dropWhile isSpace with
    | [] => skipComments ls
    | c :: cs => if c = '#' then (let (a, b) := skipComments ls; ((c :: cs) :: a, b)) else ([], (c :: cs) :: ls)

/-- `re.split(r"(?m)^#+ name\s*(?:#.*\s+)*", text)[1:]` — modelcluster.py:727-729.  Simplification: a marker in the lines
directly after a marker is not skipped as a comment. -/
def pieces (name : List Char) : List (List Char) → List (List Char) × List (List (List Char))
  | [] => ([], [])
  | l :: ls =>
    let (p, qs) := pieces name ls
    match afterMarker name l with
    | some rest => ([], (rest :: p) :: qs)
    | none => (l :: p, qs)

/-- `re.search(r"^name(.*)$", header, re.M)`, the group without surrounding white space. -/
def field (name : List Char) (header : List (List Char)) : Option (List Char) :=
  (header.findSome? (fun l => if name.isPrefixOf l then some (l.drop name.length) else none)).map strip

/-- A word character of a regular expression (letters of other alphabets are left out). -/
def isWord (c : Char) : Bool := c.isAlphanum || decide (c = '_')

/-- The words after the (reversed) beginning `cur` of a word, by `p`. -/
def wordsFrom (p : Char → Bool) : List Char → List Char → List (List Char)
  | cur, [] => if cur = [] then [] else [cur.reverse]
  | cur, c :: cs => if p c then wordsFrom p (c :: cur) cs else if cur = [] then wordsFrom p [] cs else cur.reverse :: wordsFrom p [] cs

/-- `line.split()`. -/
def fields (l : List Char) : List (List Char) := wordsFrom (fun c => !isSpace c) [] l

/-- `re.search(r"\bw\b", info)` for a word. -/
def hasWord (w info : List Char) : Bool := decide (w ∈ wordsFrom isWord [] info)

/-- The line that names the columns, else all of the section's head — modelcluster.py:652-654. -/
def columnsInfo (marker : List Char) (comments : List (List Char)) : List Char :=
  match (marker :: comments).find? (fun l => match l with | '#' :: _ => (['L']).isPrefixOf (l.dropWhile (fun c => decide (c = '#'))) | _ => false) with
  | some l => l
  | none => join ['\n'] (marker :: comments)

/-- The rows of the data: each line has `n` numbers, else SrMiseDataFormatError — modelcluster.py:752-762. -/
def readRows (float : List Char → Option K) (n : ℕ) : List (List Char) → Res (List (List K))
  | [] => .ok []
  | l :: ls =>
    if (fields l).length ≠ n then .error .dataFormat
    else match (fields l).mapM float with
      | none => .error .dataFormat
      | some row =>
        match readRows float n ls with
        | .error e => .error e
        | .ok rows => .ok (row :: rows)

/-- What `factory` calls the class with — modelcluster.py:771-780. -/
structure McRead (K V E : Type) where
  model : List (Part K)
  baseline : Option (Part K)
  r : Option (List K)
  y : Option (List K)
  err : Option (List K)
  slice : V
  method : E
  funcs : Option (List (Owner K))

/-- `[pfbaselist[i] for i in peak_funcs]` — modelcluster.py:708. -/
def pickFuncs (pf : List (Owner K)) : List ℤ → Res (List (Owner K))
  | [] => .ok []
  | i :: is =>
    match pyIndex pf.length i with
    | .error e => .error e
    | .ok j =>
      match pf[j]? with
      | none => .error .index
      | some o =>
        match pickFuncs pf is with
        | .error e => .error e
        | .ok os => .ok (o :: os)

/-- `peak_funcs` — modelcluster.py:705-708; `indices` is what iterating over the value gives. -/
def readFuncs (P : Python K V) (indices : V → Res (List ℤ)) (pf : List (Owner K)) (header : List (List Char)) :
    Res (Option (List (Owner K))) :=
  match field "peak_funcs=".toList header with
  | none => .error .attribute
  | some t =>
    match P.eval t with
    | none => .error (.other 1)
    | some v =>
      if P.isNone v then .ok none
      else match indices v with
        | .error e => .error e
        | .ok is => (pickFuncs pf is).map some

/-- The baseline — modelcluster.py:721-725; without the section the name is not bound. -/
def readBaseline (P : Python K V) (blf : List (Owner K)) : Option (List (List Char)) → Res (Option (Part K))
  | none => .error .name
  | some ls =>
    if strip (join ['\n'] (skipComments ls).2) = "None".toList then .ok none
    else (factory P false (join ['\n'] (skipComments ls).2) blf).map some

/-- The peaks in the pieces — modelcluster.py:728-730. -/
def readPeaks (P : Python K V) (pf : List (Owner K)) : List (List (List Char)) → Res (List (Part K))
  | [] => .ok []
  | q :: qs =>
    match factory P true (join ['\n'] (skipComments q).2) pf with
    | .error e => .error e
    | .ok p =>
      match readPeaks P pf qs with
      | .error e => .error e
      | .ok ps => .ok (p :: ps)

/-- Number of columns before column `w`. -/
def column (rows : List (List K)) (flags : List Bool) (j : ℕ) : Option (List K) :=
  if flags[j]?.getD false then some (rows.filterMap (fun row => row[((flags.take j).count true)]?)) else none

/-- The rest of `factory`, once the text is cut into sections and the lists of functions are there: the lines after the
marker of the data, the header, the lines of the baseline and of the peaks (`none` if there is no such section) —
modelcluster.py:651-667, 704-780.  `attr` is the lookup of a name in the package `diffpy.srmise.modelevaluators`. -/
def mcRest (P : Python K V) (indices : V → Res (List ℤ)) (float : List Char → Option K) (attr : List Char → Option E)
    (dat header : List (List Char)) (base peaks : Option (List (List Char))) (pf blf : List (Owner K)) : Res (McRead K V E) :=
  let info := columnsInfo "### start data".toList (skipComments dat).1
  let flags := [hasWord ['r'] info, hasWord ['y'] info, hasWord ['d', 'y'] info]
  match readFuncs P indices pf header with
  | .error e => .error e
  | .ok funcs =>
    match field "ModelEvaluator=".toList header with
    | none => .error .attribute
    | some name =>
      match attr name with
      | none => .error .attribute
      | some method =>
        match field "slice=".toList header with
        | none => .error .attribute
        | some st =>
          match P.eval st with
          | none => .error (.other 1)
          | some slice =>
            match readBaseline P blf base with
            | .error e => .error e
            | .ok baseline =>
              match peaks with
              | none => .error .name
              | some pls =>
                match readPeaks P pf (pieces "ModelPeak".toList pls).2 with
                | .error e => .error e
                | .ok model =>
                  match readRows float (flags.count true) (splitLines (strip (join ['\n'] (skipComments dat).2))) with
                  | .error e => .error e
                  | .ok rows =>
                    .ok ⟨model, baseline, column rows flags 0, column rows flags 1, column rows flags 2, slice, method, funcs⟩

/-- The sections of the peaks and of the baseline cut off the header — modelcluster.py:669-679: what is left of the header,
the lines of the baseline and those of the peaks. -/
def mcSections (header : List (List Char)) : List (List Char) × Option (List (List Char)) × Option (List (List Char)) :=
  let (header, peaks) := match cut "ModelPeaks".toList header with
    | none => (header, none)
    | some (h, p) => (h, some (p.drop 1))
  match cut "BaselineObject".toList header with
  | none => (header, none, peaks)
  | some (h, p) => (h, some p, peaks)

/-- `ModelCluster.factory(text, pfbaselist=pf, blfbaselist=blf)` up to the call of the class — modelcluster.py:611-780.
Simplification: the section texts are not stripped before they are cut into peaks. -/
def mcFactory (P : Python K V) (indices : V → Res (List ℤ)) (float : List Char → Option K) (attr : List Char → Option E)
    (text : List Char) (pf blf : List (Owner K)) : Res (McRead K V E) :=
  match cut "start data".toList (splitLines text) with
  | none => .error .name
  | some (header, dat) =>
    mcRest P indices float attr dat (mcSections header).1 (mcSections header).2.1 (mcSections header).2.2 pf blf

end Verif.Text
