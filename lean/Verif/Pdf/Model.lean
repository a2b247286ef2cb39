import Verif.Extraction.Model
import Mathlib.Analysis.SpecialFunctions.Trigonometric.Basic
import Mathlib.Analysis.SpecialFunctions.Sqrt
import Mathlib.Algebra.BigOperators.Intervals

/-!
# Model of `src/diffpy/srmise/pdfpeakextraction.py`

Numbers are real (π, sine and square root occur); `stdratio`'s loops are over any field.
-/

namespace Verif.Pdf

open Verif.Py

/-! ### errorscale, resample, resampledata -/

/-- `errorscale(dr)` — pdfpeakextraction.py:312-332, for `dr > 0` (the square root of a negative number is
NaN in numpy). -/
noncomputable def errorscale (qmax : ℝ) (nyquist scale : Bool) (dr : ℝ) : ℝ :=
  if qmax > 0 ∧ nyquist ∧ scale then max (Real.sqrt (Real.pi / qmax / dr)) 1 else 1

/-- `np.sinc`. -/
noncomputable def sinc (t : ℝ) : ℝ := if t = 0 then 1 else Real.sin (Real.pi * t) / (Real.pi * t)

/-- The loop `for i, y in enumerate(orig_y)` of `resample` at one new point — pdfpeakextraction.py:963-965. -/
noncomputable def resampleLoop (dr shift v : ℝ) : ℕ → List ℝ → ℝ → ℝ
  | _, [], acc => acc
  | i, y :: ys, acc => resampleLoop dr shift v (i + 1) ys (acc + y * sinc (v / dr - (i + shift)))

/-- `resample(orig_r, orig_y, new_r)` — pdfpeakextraction.py:934-967.  Empty arguments raise IndexError
(`new_r[0]` is read); a single original point makes the spacing 0/0, here ZeroDivisionError (NaN with a warning for numpy
numbers).  The warnings are not modelled. -/
noncomputable def resample (r y new : List ℝ) : Res (List ℝ) :=
  match r.head?, r.getLast?, new with
  | some a, some b, _ :: _ =>
    if r.length = 1 then .error (.other 1)
    else
      let dr := (b - a) / ((r.length : ℝ) - 1)
      .ok (new.map (fun v => resampleLoop dr (a / dr) v 0 y (v * 0)))
  | _, _, _ => .error .index

/-- `np.arange(start, stop, step)` for a positive step. -/
noncomputable def arange (start stop step : ℝ) : List ℝ :=
  (List.range ⌈(stop - start) / step⌉₊).map (fun k : ℕ => start + k * step)

/-- `np.interp(v, xp, fp)` for increasing `xp`: constant outside, linear in between. -/
noncomputable def interp (v : ℝ) : List ℝ → List ℝ → ℝ
  | x0 :: x1 :: xs, y0 :: y1 :: ys =>
    if v ≤ x0 then y0
    else if v < x1 then y0 + (v - x0) * ((y1 - y0) / (x1 - x0))
    else interp v (x1 :: xs) (y1 :: ys)
  | _, y0 :: _ => y0
  | _, _ => 0

/-- The grid of `resampledata(dr)` — pdfpeakextraction.py:299. -/
noncomputable def newGrid (x0 x1 a b dr : ℝ) : List ℝ := arange (max x0 a) (min x1 b) dr

/-- `y_error` of `resampledata` — pdfpeakextraction.py:308. -/
noncomputable def newError (qmax : ℝ) (nyquist scale : Bool) (dr : ℝ) (x eff r : List ℝ) : List ℝ :=
  r.map (fun v => errorscale qmax nyquist scale dr * interp v x eff)

/-! ### stdratio -/

section StdRatio

variable {K : Type} [Field K]

/-- `(n, mean, m2)` after `i` iterations of the first loop — pdfpeakextraction.py:1075-1085. -/
def leftAt (d : ℕ → K) : ℕ → ℕ × K × K
  | 0 => (0, 0, 0)
  | i + 1 =>
    let s := leftAt d i
    let n := s.1 + 1
    let delta := d i - s.2.1
    let mean := s.2.1 + delta / n
    (n, mean, s.2.2 + delta * (d i - mean))

/-- Iteration `i` of the second loop — pdfpeakextraction.py:1094-1107. -/
def rightStep (d : ℕ → K) (i : ℕ) (s : ℕ × K × K) : ℕ × K × K :=
  let n := s.1 - 1
  let delta := d i - s.2.1
  let mean := s.2.1 - delta / n
  let m2 := s.2.2 - delta * (d i - mean)
  let n := n + 2
  let meanAdd := (d (2 * i) + d (2 * i + 1)) / 2
  let m2Add := (d (2 * i) - meanAdd) ^ 2 + (d (2 * i + 1) - meanAdd) ^ 2
  let delta := meanAdd - mean
  (n, mean + 2 * delta / n, m2 + m2Add + delta ^ 2 * (2 * n - 4) / n)

/-- `(n, mean, m2)` when `std_right[i + 1]` is stored — pdfpeakextraction.py:1087-1107. -/
def rightAt (d : ℕ → K) : ℕ → ℕ × K × K
  | 0 =>
    let mean := (d 2 + d 3) / 2
    (2, mean, (d 2 - mean) ^ 2 + (d 3 - mean) ^ 2)
  | i + 1 => rightStep d (i + 2) (rightAt d i)

end StdRatio

/-- `stdratio(data)` — pdfpeakextraction.py:1050-1109: element `i` of the result, whose length is
`len(data) // 2 - 1`.  With fewer than four points `data[2]` or `data[3]` raises IndexError. -/
noncomputable def stdratio (data : List ℝ) : Res (List ℝ) :=
  if data.length < 4 then .error .index
  else
    let d : ℕ → ℝ := fun i => data.getD i 0
    .ok ((List.range (data.length / 2 - 1)).map (fun i =>
      Real.sqrt ((leftAt d (i + 2)).2.2 / (rightAt d i).2.2)))

end Verif.Pdf
