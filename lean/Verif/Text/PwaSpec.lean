import Verif.Text.ClusterProps
import Verif.Text.PwaModel

/-!
# Reading a summary of extracted peaks

What someone does who reads a file of `writepwa`: find a section by its heading, split the lines at white space, turn the
words into numbers.
-/

namespace Verif.Text

open Verif.Py Verif.Parts

open Verif.Pdf (MetaField splitLines)

variable {K : Type}

/-- The lines after the first line that is `marker`. -/
def afterLine (marker : List Char) : List (List Char) → List (List Char)
  | [] => []
  | l :: ls => if l = marker then ls else afterLine marker ls

/-- A line of the table of peaks: three numbers, `#`, an index. -/
def readPwaRow (float : List Char → Option K) (l : List Char) : Option (K × K × K × List Char) :=
  match fields l with
  | [a, b, c, h, i] =>
    if h = ['#'] then
      match float a, float b, float c with
      | some x, some y, some z => some (x, y, z, i)
      | _, _, _ => none
    else none
  | _ => none

/-- The table of peaks in a summary: what follows `#L position fwhm area`, without empty lines. -/
def readPwa (float : List Char → Option K) (text : List Char) : Option (List (K × K × K × List Char)) :=
  ((afterLine "#L position fwhm area".toList (splitLines text)).filter (fun l => decide (l ≠ []))).mapM (readPwaRow float)

/-- The lines of the section `## Peak Functions`, as words: index, module and perhaps the index of the base. -/
def functionsIn (text : List Char) : List (List (List Char)) :=
  (((afterLine "## Peak Functions".toList (splitLines text)).drop 1).takeWhile (fun l => decide (l ≠ []))).map fields

/-- The comments of the user in a summary. -/
def commentsIn (text : List Char) : List (List Char) :=
  ((afterLine "##### User comments".toList (splitLines text)).takeWhile
    (fun l => decide (l ≠ "##### PDF Peak Extraction Summary".toList))).map (List.drop 2)

/-- A word: something, without white space. -/
def Word (t : List Char) : Prop := t ≠ [] ∧ ∀ c ∈ t, isSpace c = false

/-- The texts are such that lines can be told apart: no line break in them, and numbers and modules are words. -/
structure Printable (W : Pwa K) (p : Px K) : Prop where
  time : '\n' ∉ W.time
  user : '\n' ∉ W.user
  version : '\n' ∉ W.version
  pdf : ∀ f, '\n' ∉ W.pdf f
  quality : ∀ t, W.quality = .ok t → '\n' ∉ t
  moduleOf : ∀ f, Word (W.moduleOf f)
  str : ∀ x, Word (W.str x)
  fmt : ∀ x, Word (W.fmt x)
  rng : '\n' ∉ p.rng
  method : ∀ t, p.method = some t → '\n' ∉ t
  labels : ∀ m b, p.extracted = some m → m.baseline = some b → ∀ e ∈ b.owner.dict, '\n' ∉ e.1.toList

/-- The parameter with a name, in a list of parameters of a function. -/
def Named (o : Owner K) (q : List K) (name : String) (v : K) : Prop := ∃ i, o.dict.lookup name = some i ∧ q[i]? = some v

/-- A row describes a peak: its numbers are position, width and area of the peak in the format `pwa`, its index is that of
the line in the list of functions with the module of the peak's function and, if that function is based on another, the index
of that one. -/
def RowOf (W : Pwa K) (text : List Char) (p : Part K) (row : K × K × K × List Char) : Prop :=
  (∃ q, p.owner.transform p.pars (some "internal") (some "pwa") = .ok q ∧
    Named p.owner q "position" row.1 ∧ Named p.owner q "width" row.2.1 ∧ Named p.owner q "area" row.2.2.1) ∧
  ∃ n : ℕ, row.2.2.2 = reprNat n ∧
    match W.baseOf p.owner.id with
    | none => (functionsIn text)[n]? = some [reprNat n, W.moduleOf p.owner.id]
    | some b => ∃ j : ℕ, (functionsIn text)[n]? = some [reprNat n, W.moduleOf p.owner.id, "(base=".toList ++ reprNat j ++ ")".toList] ∧
        ∃ rest, (functionsIn text)[j]? = some (reprNat j :: W.moduleOf b :: rest)

end Verif.Text
