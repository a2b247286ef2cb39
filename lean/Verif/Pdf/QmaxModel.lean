import Verif.Pdf.Model
import Verif.Ripples.Model
import Verif.Multimodel.StateModel

/-!
# Model of `find_qmax` (`src/diffpy/srmise/pdfpeakextraction.py:970-1047`)

Numbers are real; the Fourier transform is the sum that defines it.  The graphs are not modelled.
-/

namespace Verif.Pdf

open Verif.Py

/-- `np.linspace(a, b, n)` for `n ≥ 2`. -/
noncomputable def linspace (a b : ℝ) (n : ℕ) : List ℝ :=
  (List.range n).map (fun k : ℕ => a + k * ((b - a) / ((n : ℝ) - 1)))

/-- `np.diff(l)`. -/
def diff1 (l : List ℝ) : List ℝ := List.zipWith (fun a b => b - a) l l.tail

/-- `-np.diff(d_ratio, 2)` — pdfpeakextraction.py:1013. -/
def negDiff2 (l : List ℝ) : List ℝ := (diff1 (diff1 l)).map (fun v => -v)

/-- `np.imag(np.fft.fft(new_y))[: len(new_y) // 2]` — pdfpeakextraction.py:1000. -/
noncomputable def halfImag (u : List ℝ) : List ℝ := ((Ripples.fft u.length u).map Complex.im).take (u.length / 2)

/-- A run of `stdratio` has no spread, so that it divides by 0 (the second run of some length is constant). -/
def Degenerate (f : List ℝ) : Prop := ∃ i < f.length / 2 - 1, (rightAt (fun j => f.getD j 0) i).2.2 = 0

/-- `np.argmax(dder[::-1])` — pdfpeakextraction.py:1018; ValueError for nothing.  If `stdratio` has divided by 0, the values
are infinite or NaN; the index is then `nan f`, of which only the range is assumed. -/
noncomputable def lastPeak (nan : List ℝ → ℕ) (f dder : List ℝ) : Res ℕ :=
  open Classical in
  if dder = [] then .error .value
  else if Degenerate f then .ok (nan f)
  else Multimodel.argmax dder.reverse

/-- `find_qmax(r, y)` — pdfpeakextraction.py:987-1022, 1047.  One point: `dr` is 0/0 (ZeroDivisionError, or NaN for numpy numbers
and IndexError in `stdratio`). -/
noncomputable def findQmax (nan : List ℝ → ℕ) (r y : List ℝ) : Res (ℝ × ℝ) :=
  if r.length ≠ y.length then .error .value
  else match r.head?, r.getLast? with
    | some a, some b =>
      if r.length = 1 then .error (.other 1)
      else do
        let dr := (b - a) / ((r.length : ℝ) - 1)
        let newR := linspace a b (2 * r.length)
        let newY ← resample r y newR
        let newDr := (newR.getLastD 0 - a) / ((newR.length : ℝ) - 1)
        let yfft := halfImag newY
        let ratio ← stdratio yfft
        let dder := negDiff2 ratio
        let k ← lastPeak nan yfft dder
        let m := dder.length - k + 1
        let dq := 2 * Real.pi / (((newY.length : ℝ) - 1) * newDr)
        pure (dq * m, 2 * Real.pi / (((y.length : ℝ) - 1) * dr))
    | _, _ => .error .index

end Verif.Pdf
