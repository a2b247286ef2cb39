import Verif.Parts.Model

/-!
# Model of the text form of model parts and base functions

`ModelPart.writestr`, `Peak.factory`, `Baseline.factory` (modelparts.py, peaks/base.py, baselines/base.py) and
`BaseFunction.writestr`, `BaseFunction.factory` (basefunction.py).  A text is a list of characters.  `eval`, the values it
gives and `repr` of numbers are arguments (`Python`).
-/

namespace Verif.Text

open Verif.Py Verif.Parts

/-! ### Texts -/

/-- Line boundaries of `str.splitlines` (Python's standard library). -/
def isBreak (c : Char) : Bool :=
  c = '\n' || c = '\r' || c = '\x0b' || c = '\x0c' || c = '\x1c' || c = '\x1d' || c = '\x1e' || c = '\u0085' ||
    c = '\u2028' || c = '\u2029'

/-- `str.isspace` of one character: what `strip` removes and `\s` matches. -/
def isSpace (c : Char) : Bool :=
  isBreak c || c = ' ' || c = '\t' || c = '\x1f' || c = '\u00a0' || c = '\u1680' ||
    (decide ('\u2000' ≤ c) && decide (c ≤ '\u200a')) || c = '\u202f' || c = '\u205f' || c = '\u3000'

/-- `s.strip()`. -/
def strip (s : List Char) : List Char := ((s.dropWhile isSpace).reverse.dropWhile isSpace).reverse

/-- `s.splitlines()` after the (reversed) beginning `cur` of a line: a break ends a line, `\r\n` is one break, no empty
line after a final break. -/
def splitlinesFrom : List Char → List Char → List (List Char)
  | cur, [] => if cur = [] then [] else [cur.reverse]
  | cur, '\r' :: '\n' :: cs => cur.reverse :: splitlinesFrom [] cs
  | cur, c :: cs => if isBreak c then cur.reverse :: splitlinesFrom [] cs else splitlinesFrom (c :: cur) cs

/-- `s.splitlines()`. -/
def splitlines (s : List Char) : List (List Char) := splitlinesFrom [] s

/-- `s.split("=", 1)`: what is before and after the first `=`; `none` if there is none. -/
def splitEq : List Char → Option (List Char × List Char)
  | [] => none
  | c :: cs => if c = '=' then some ([], cs) else (splitEq cs).map (fun (k, v) => (c :: k, v))

/-- `sep.join(ls)`. -/
def join (sep : List Char) : List (List Char) → List Char
  | [] => []
  | [l] => l
  | l :: l' :: ls => l ++ sep ++ join sep (l' :: ls)

/-- A Python dict from texts, in the order of insertion. -/
abbrev Dict (V : Type) := List (List Char × V)

/-- `d[k] = v`. -/
def Dict.set {V : Type} (d : Dict V) (k : List Char) (v : V) : Dict V :=
  if d.any (fun e => decide (e.1 = k)) then d.map (fun e => if e.1 = k then (k, v) else e) else d ++ [(k, v)]

/-- `d[k]`, `none` if there is none (KeyError). -/
def Dict.get {V : Type} (d : Dict V) (k : List Char) : Option V := (d.find? (fun e => decide (e.1 = k))).map Prod.snd

/-- `del d[k]`. -/
def Dict.del {V : Type} (d : Dict V) (k : List Char) : Dict V := d.filter (fun e => decide (e.1 ≠ k))

/-! ### Values -/

/-- What is used of Python: `eval` (`none` if it raises), what its values are when used as an index (`none`: not an
integer), as parameters (`len(pars)`, `np.array(pars[:])` with its dtype; the exception if that fails), as `free`, as a truth
value, whether it is `None`; `repr` of a parameter and of an element of `free`. -/
structure Python (K V : Type) where
  eval : List Char → Option V
  index : V → Option ℤ
  pars : V → Res (List K × Bool)
  free : V → Res (Option (List Bool))
  truth : V → Bool
  isNone : V → Bool
  reprNum : Bool → K → List Char
  reprFree : Bool → List Char

variable {K V : Type}

/-- `repr` of an index. -/
def reprNat (n : ℕ) : List Char := Nat.toDigits 10 n

/-- `repr` of a bool. -/
def reprBool : Bool → List Char
  | true => "True".toList
  | false => "False".toList

/-- `"[%s]" % ", ".join(...)` — modelparts.py:793-794. -/
def listText (ts : List (List Char)) : List Char := '[' :: join ", ".toList ts ++ [']']

/-! ### Model parts -/

/-- `ownerlist.index(owner)`; functions are compared by identity. -/
def ownerIndex (owners : List (Owner K)) (id : ℕ) : Option ℕ := owners.findIdx? (fun o => decide (o.id = id))

/-- The five lines — modelparts.py:790-796. -/
def partLines (P : Python K V) (p : Part K) (i : ℕ) : List (List Char) :=
  ["owner=".toList ++ reprNat i,
   "pars=".toList ++ listText (p.pars.map (P.reprNum p.isInt)),
   "free=".toList ++ listText (p.free.map P.reprFree),
   "removable=".toList ++ reprBool p.removable,
   "static_owner=".toList ++ reprBool p.staticOwner]

/-- `ModelPart.writestr(ownerlist)` — modelparts.py:772-798. -/
def writestr (P : Python K V) (p : Part K) (owners : List (Owner K)) : Res (List Char) :=
  match ownerIndex owners p.owner.id with
  | none => .error .value
  | some i => .ok (join ['\n'] (partLines P p i) ++ ['\n'])

/-- The dictionary — peaks/base.py:283-296, baselines/base.py:176-188. -/
def readDict (P : Python K V) : List (List Char) → Dict V → Res (Dict V)
  | [], d => .ok d
  | l :: ls, d =>
    match splitEq l with
    | none => .error .dataFormat
    | some (k, t) =>
      match P.eval t with
      | none => .error .dataFormat
      | some v => readDict P ls (d.set k v)

/-- The keywords `Peak` and `Baseline` accept beside the owner — peaks/base.py:221, baselines/base.py:132. -/
def keywords : List (List Char) := ["pars".toList, "free".toList, "removable".toList, "static_owner".toList]

/-- The keyword `free`, `None` if it is not given. -/
def freeOf (P : Python K V) (kw : Dict V) : Res (Option (List Bool)) :=
  match kw.get "free".toList with
  | none => .ok none
  | some fv => P.free fv

/-- `Peak(**pdict)`, `Baseline(**pdict)` — peaks/base.py:303, baselines/base.py:196; `removable` is the default of that
keyword. -/
def construct (P : Python K V) (removable : Bool) (o : Owner K) (kw : Dict V) : Res (Part K) :=
  if ¬ (∀ e ∈ kw, e.1 ∈ keywords) then .error .type
  else match kw.get "pars".toList with
    | none => .error .type
    | some pv =>
      match P.pars pv with
      | .error e => .error e
      | .ok (pars, isInt) =>
        match freeOf P kw with
        | .error e => .error e
        | .ok free =>
          Part.new o pars free (((kw.get "removable".toList).map P.truth).getD removable)
            (((kw.get "static_owner".toList).map P.truth).getD false) isInt

/-- `Peak.factory(peakstr, ownerlist)` (`removable` true) — peaks/base.py:273-303 — and
`Baseline.factory(baselinestr, ownerlist)` (`removable` false) — baselines/base.py:163-196. -/
def factory (P : Python K V) (removable : Bool) (text : List Char) (owners : List (Owner K)) : Res (Part K) :=
  match readDict P (splitlines (strip text)) [] with
  | .error e => .error e
  | .ok d =>
    match d.get "owner".toList with
    | none => .error .key
    | some v =>
      match P.index v with
      | none => .error .type
      | some i =>
        if (owners.length : ℤ) < i then .error .value
        else match pyIndex owners.length i with
          | .error e => .error e
          | .ok j =>
            match owners[j]? with
            | none => .error .index
            | some o => construct P removable o (d.del "owner".toList)

/-! ### Base functions -/

/-- What `BaseFunction.writestr` writes: `repr` of the name of the class and of its module, the index of the base, the
other metadata as key and text. -/
structure FnText where
  name : List Char
  module : List Char
  base : Option ℕ
  pairs : List (List Char × List Char)

/-- `writestr(baselist)` — basefunction.py:403-433, once the index of the base is found. -/
def fnWritestr (f : FnText) : List Char :=
  join ['\n'] (("function=".toList ++ f.name) :: ("module=".toList ++ f.module) ::
    ("base=".toList ++ (match f.base with | none => "None".toList | some i => reprNat i)) ::
    f.pairs.map (fun e => e.1 ++ '=' :: e.2)) ++ ['\n']

/-- A line that starts a parameter: `(\S+)=` matches at its start, as much as possible — basefunction.py:459. -/
def keyOf (l : List Char) : Option (List Char × List Char) :=
  let word := l.takeWhile (fun c => !isSpace c)
  let rest := l.dropWhile (fun c => !isSpace c)
  match word.reverse.span (fun c => decide (c ≠ '=')) with
  | (_, []) => none
  | (_, [_]) => none
  | (after, _ :: before) => some (before.reverse, after.reverse ++ rest)

/-- Trailing empty lines removed. -/
def dropEmpty (ls : List (List Char)) : List (List Char) := (ls.reverse.dropWhile (fun l => decide (l = []))).reverse

/-- `re.split(r"(?:[\r\n]+|\A)(\S+)=", data)` for a text whose breaks are all `\n`, by lines: the lines before the first
parameter, and the parameters with their texts — basefunction.py:454-462. -/
def splitKeys : List (List Char) → List (List Char) × List (List Char × List Char)
  | [] => ([], [])
  | l :: ls =>
    let (pend, es) := splitKeys ls
    match keyOf l with
    | none => (l :: pend, es)
    | some (k, v) => ([], (k, join ['\n'] (v :: if es = [] then pend else dropEmpty pend)) :: es)

/-- `ddict`, then `pdict` — basefunction.py:460-472. -/
def fnDict (P : Python K V) (text : List Char) : Res (Dict V) :=
  let raw : Dict (List Char) := (splitKeys (splitlines text)).2.foldl (fun d e => d.set e.1 e.2) []
  raw.foldr (fun e acc =>
    match P.eval e.2 with
    | none => .error .dataFormat
    | some v => match acc with | .error x => .error x | .ok d => .ok ((e.1, v) :: d)) (.ok [])

/-- What `BaseFunction.factory` makes of the text before it calls the class: the values of name and module, the position
of the base in the list, the keywords. -/
structure FnRead (V : Type) where
  name : V
  module : V
  base : Option ℕ
  pairs : Dict V

/-- `factory(functionstr, baselist)` for a list of `n` functions, up to the call of the class — basefunction.py:436-495. -/
def fnFactory (P : Python K V) (text : List Char) (n : ℕ) : Res (FnRead V) :=
  match fnDict P text with
  | .error e => .error e
  | .ok d =>
    match d.get "function".toList with
    | none => .error .key
    | some f =>
      match d.get "module".toList with
      | none => .error .key
      | some m =>
        match d.get "base".toList with
        | none => .error .key
        | some b =>
          let kw := ((d.del "function".toList).del "module".toList).del "base".toList
          if P.isNone b then .ok ⟨f, m, none, kw⟩
          else match P.index b with
            | none => .error .type
            | some i =>
              if (n : ℤ) < i then .error .value
              else match pyIndex n i with
                | .error e => .error e
                | .ok j => .ok ⟨f, m, some j, kw⟩

end Verif.Text
