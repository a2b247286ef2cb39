import Verif.Text.ExtractionProps
import Verif.Text.PwaSpec

/-!
# Looking into the file of an extraction

What someone does who looks into a file written by `PeakExtraction.write` (or would do who repaired `readstr`): find a section
by its heading, split the lines at white space, turn words into numbers, give the text of a part to its factory.
-/

namespace Verif.Text

open Verif.Py Verif.Parts

open Verif.Pdf (splitLines)

variable {K V : Type}

/-- The lines after the first line that is `a`, up to the next that is `b`. -/
def between (a b : String) (ls : List (List Char)) : List (List Char) :=
  (afterLine a.toList ls).takeWhile (fun l => decide (l ≠ b.toList))

/-- The blocks in some lines: after each line `m`, up to the next such line. -/
def blocks (m : String) : List (List Char) → List (List (List Char))
  | [] => []
  | l :: ls => if l = m.toList then ls.takeWhile (fun l => decide (l ≠ m.toList)) :: blocks m ls else blocks m ls

/-- The numbers in the column with a name: the first line of the section names the columns, the others are the rows. -/
def columnIn (float : List Char → Option K) (text : List Char) (name : String) : Option (List K) :=
  match between "##### start data" "##### Results" (splitLines text) with
  | [] => none
  | h :: rows =>
    if name.toList ∈ (fields h).drop 1 then
      rows.mapM (fun r => ((fields r)[((fields h).drop 1).idxOf name.toList]?).bind float)
    else none

/-- The text of function number `k` in a section: the lines after its heading, as far as they do not start with `#`. -/
def functionText (a b label : String) (k : ℕ) (text : List Char) : List Char :=
  join ['\n'] ((afterLine (label.toList ++ reprNat k) (between a b (splitLines text))).takeWhile (fun l => decide (l.head? ≠ some '#')))

/-- The value of a setting: what follows `name=` in the first line of the section that starts so. -/
def settingIn (a b name : String) (text : List Char) : Option (List Char) :=
  (between a b (splitLines text)).findSome? (fun l => if name.toList <+: l then some (l.drop name.toList.length) else none)

/-- What is assumed of the texts: only headings start with `#`, what is written in one line has no line break, numbers are
words, parts can be read back (`PartReadable`, see C76). -/
structure FilePrintable (P : Python K V) (fmt : K → List Char) (safe : List ℕ → List (Owner K))
    (fnText : List (Owner K) → Owner K → Res (List Char)) (header : List (List Char)) (p : Px K) : Prop where
  header : ∀ l ∈ header, '\n' ∉ l ∧ (Plain l ∨ l = "##### PDF Peak Extraction".toList)
  fn : ∀ fs f t, fnText fs f = .ok t → ∀ l ∈ splitLines t, Plain l
  metadata : ∀ t, p.metadata = some t → ∀ l ∈ splitLines t, Plain l
  fmt : ∀ x, Word (fmt x) ∧ Plain (fmt x)
  rng : '\n' ∉ p.rng
  etype : '\n' ∉ p.etype
  method : ∀ t, p.method = some t → '\n' ∉ t
  peaks : ∀ ids, allPf p = .ok ids → ∀ ps, p.initialPeaks = some ps → ∀ q ∈ ps, PartReadable P (safe ids) q
  base : ∀ q, p.baseline = some (.inl q) → PartReadable P (safe (allBf p)) q

end Verif.Text
