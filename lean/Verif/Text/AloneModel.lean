import Verif.Text.ExtractionModel

/-!
# Model of `ModelCluster.writestr` and `factory` when the lists of functions need not be given

`src/diffpy/srmise/modelcluster.py:533-780`.  Each of `pfbaselist` and `blfbaselist` is given (`some`) or not (`none`); a list
that is not given is made from the cluster, written with it and read with it.
-/

namespace Verif.Text

open Verif.Py Verif.Parts

open Verif.Pdf (splitLines)

variable {K V E : Type}

/-- `pfbaselist` of `writestr` — modelcluster.py:543-551: `extend(None)` is TypeError.  `safe` is
`safefunctionlist(list(set(...)))`. -/
def pfToWrite (safe : List ℕ → List (Owner K)) (c : Mc K) : Option (List (Owner K)) → Res (List (Owner K))
  | some pf => .ok pf
  | none =>
    match c.funcs with
    | none => .error .type
    | some fs => .ok (safe (c.model.map (fun p => p.owner.id) ++ fs))

/-- `blfbaselist` of `writestr` — modelcluster.py:553-558: `None.owner()` is AttributeError. -/
def blfToWrite (safe : List ℕ → List (Owner K)) (c : Mc K) : Option (List (Owner K)) → Res (List (Owner K))
  | some blf => .ok blf
  | none =>
    match c.baseline with
    | none => .error .attribute
    | some b => .ok (safe [b.owner.id])

/-- A section of functions, if they are to be written — modelcluster.py:575-586.  `fnText fs f` is what is written of `f`
(ValueError if its base is not in the list). -/
def fnSection (fnText : List (Owner K) → Owner K → Res FnText) (title label : List Char) (fs : List (Owner K)) :
    Option (List (Owner K)) → Res (List (List Char))
  | some _ => .ok []
  | none => (fnLines (fun l f => (fnText l f).map fnWritestr) label fs 0 fs).map (fun ts => title :: ts)

/-- `ModelCluster.writestr(**kwds)` — modelcluster.py:533-610. -/
def mcWritestrKw (P : Python K V) (fmt : K → List Char) (safe : List ℕ → List (Owner K))
    (fnText : List (Owner K) → Owner K → Res FnText) (pfk blfk : Option (List (Owner K))) (c : Mc K) : Res (List Char) :=
  match pfToWrite safe c pfk with
  | .error e => .error e
  | .ok pf =>
    match blfToWrite safe c blfk with
    | .error e => .error e
    | .ok blf =>
      match funcsText pf c.funcs with
      | .error e => .error e
      | .ok ft =>
        match fnSection fnText "## BaselineFunctions".toList "# BaselineFunction ".toList blf blfk with
        | .error e => .error e
        | .ok bs =>
          match fnSection fnText "## PeakFunctions".toList "# PeakFunction ".toList pf pfk with
          | .error e => .error e
          | .ok ps =>
            match baselineText P blf c.baseline with
            | .error e => .error e
            | .ok bt =>
              match peaksText P pf c.model with
              | .error e => .error e
              | .ok pt =>
                match dataText fmt c.r c.y c.err with
                | .error e => .error e
                | .ok dt =>
                  .ok (join ['\n'] (["peak_funcs=".toList ++ ft, "ModelEvaluator=".toList ++ c.method.getD "None".toList,
                    "slice=".toList ++ c.slice] ++ bs ++ ps ++ ["# BaselineObject".toList, bt, "## ModelPeaks".toList] ++ pt ++
                    ["### start data".toList, "#L r y dy".toList] ++ dt) ++ ['\n'])

/-! ### Reading -/

/-- `^#+ name \d+` at the start of a line: the rest of the line. -/
def afterNumbered (name l : List Char) : Option (List Char) :=
  match afterMarker (name ++ [' ']) l with
  | none => none
  | some rest =>
    match rest with
    | [] => none
    | c :: _ => if c.isDigit then some (rest.dropWhile Char.isDigit) else none

/-- `re.split(r"(?m)^#+ name \d+\s*(?:#.*\s+)*", text)[1:]` — modelcluster.py:691-693, 700.  Simplification as for `pieces`. -/
def fnPieces (name : List Char) : List (List Char) → List (List Char) × List (List (List Char))
  | [] => ([], [])
  | l :: ls =>
    let (p, qs) := fnPieces name ls
    match afterNumbered name l with
    | some rest => ([], (rest :: p) :: qs)
    | none => (l :: p, qs)

/-- The functions of a section, one after the other, each with the list of those before it — modelcluster.py:689-702.
`call` is the call of the class found in the module, with the base in the list and the keywords.  Simplification: the line
break before a marker is left out (`eval` does not see it). -/
def readFns (P : Python K V) (call : FnRead V → List (Owner K) → Res (Owner K)) :
    List (Owner K) → List (List (List Char)) → Res (List (Owner K))
  | done, [] => .ok done
  | done, q :: qs =>
    match fnFactory P (join ['\n'] (skipComments q).2) done.length with
    | .error e => .error e
    | .ok r =>
      match call r done with
      | .error e => .error e
      | .ok o => readFns P call (done ++ [o]) qs

/-- A section of functions cut off the header, unless the list is given — modelcluster.py:681-693, 698-700: what is left of
the header, and the pieces; without the section the name is not bound. -/
def cutFns (title name : List Char) (given : Option (List (Owner K))) (header : List (List Char)) :
    List (List Char) × Res (List (List (List Char))) :=
  match given with
  | some _ => (header, .ok [])
  | none =>
    match cut title header with
    | none => (header, .error .name)
    | some (h, p) => (h, .ok (fnPieces name (p.drop 1)).2)

/-- The list of functions — modelcluster.py:689-702. -/
def listOfFns (P : Python K V) (call : FnRead V → List (Owner K) → Res (Owner K)) (given : Option (List (Owner K)))
    (ps : Res (List (List (List Char)))) : Res (List (Owner K)) :=
  match given with
  | some l => .ok l
  | none => match ps with
    | .error e => .error e
    | .ok ps => readFns P call [] ps

/-- `ModelCluster.factory(text, **kwds)` up to the call of the class — modelcluster.py:611-780. -/
def mcFactoryKw (P : Python K V) (call : FnRead V → List (Owner K) → Res (Owner K)) (indices : V → Res (List ℤ))
    (float : List Char → Option K) (attr : List Char → Option E) (pfk blfk : Option (List (Owner K))) (text : List Char) :
    Res (McRead K V E) :=
  match cut "start data".toList (splitLines text) with
  | none => .error .name
  | some (header, dat) =>
    let s := mcSections header
    let p := cutFns "PeakFunctions".toList "PeakFunction".toList pfk s.1
    let b := cutFns "BaselineFunctions".toList "BaselineFunction".toList blfk p.1
    match listOfFns P call blfk b.2 with
    | .error e => .error e
    | .ok blf =>
      match listOfFns P call pfk p.2 with
      | .error e => .error e
      | .ok pf => mcRest P indices float attr dat b.1 s.2.1 s.2.2 pf blf

end Verif.Text
