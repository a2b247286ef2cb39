import Verif.Py.Basic
import Mathlib.Analysis.SpecialFunctions.Trigonometric.Inverse
import Mathlib.Analysis.SpecialFunctions.Log.Basic
import Mathlib.Analysis.SpecialFunctions.Pow.Real
import Mathlib.Algebra.Order.Floor.Ring

/-!
# Model of `src/diffpy/srmise/peaks/gaussian.py` and `gaussianoverr.py`

Numbers are reals; results that numpy would report as NaN or infinity are `none` where the code can
produce them (`arcsin` outside `[-1, 1]`, square root of a negative number, division by zero).
`mw` is the `maxwidth` of the function, positive by the constructor (gaussian.py:69-72).
-/

namespace Verif.Peaks

open Verif.Py

/-- Parameters `(position, width, area)` in some format — gaussian.py:51. -/
structure P where
  pos : ℝ
  wid : ℝ
  area : ℝ

/-- Which of the two peak functions. -/
inductive Shape
  | gaussian
  | overR
  deriving DecidableEq

/-- `Gaussian(maxwidth)`, `GaussianOverR(maxwidth)` — gaussian.py:69-72, gaussianoverr.py:69-72. -/
noncomputable def init (mw : ℝ) : Res Unit := if mw ≤ 0 then .error .value else .ok ()

/-- `self.c1` — gaussian.py:76. -/
noncomputable def c1 (mw : ℝ) : ℝ := mw * Real.sqrt (Real.pi / (8 * Real.log 2))

/-- `self.c2` — gaussian.py:77. -/
noncomputable def c2 (mw : ℝ) : ℝ := mw ^ 2 / (8 * Real.log 2)

/-- `self.c3` — gaussian.py:80. -/
noncomputable def c3 : ℝ := 0.5 * Real.sqrt (Real.pi / Real.log 2)

/-- `self.sigma2fwhm` — gaussian.py:84. -/
noncomputable def sigma2fwhm : ℝ := 2 * Real.sqrt (2 * Real.log 2)

/-- `_valueraw` at one `r` — gaussian.py:407-411, gaussianoverr.py:473-477.  Where numpy divides by
zero (zero width; `r = 0` for Gaussian/r) the model has Lean's `x / 0 = 0`; theorems exclude these. -/
noncomputable def value (s : Shape) (mw : ℝ) (p : P) (r : ℝ) : ℝ :=
  match s with
  | .gaussian => |p.area| / (c1 mw * Real.sqrt (Real.sin p.wid + 1)) *
      Real.exp (-(r - p.pos) ^ 2 / (c2 mw * (Real.sin p.wid + 1)))
  | .overR => |p.area| / (|r| * c1 mw * Real.sqrt (Real.sin p.wid + 1)) *
      Real.exp (-(r - p.pos) ^ 2 / (c2 mw * (Real.sin p.wid + 1)))

/-- The folding of the internal width into `[-π/2, π/2]` — gaussian.py:340-346,
gaussianoverr.py:408-413. -/
noncomputable def fold (w : ℝ) : ℝ :=
  let n := ⌊(w + Real.pi / 2) / Real.pi⌋
  if n % 2 = 0 then w - Real.pi * n else Real.pi * n - w

/-- `np.arcsin`; NaN (`none`) outside `[-1, 1]`. -/
noncomputable def arcsin? (x : ℝ) : Option ℝ :=
  if -1 ≤ x ∧ x ≤ 1 then some (Real.arcsin x) else none

/-- Conversion to the internal format — gaussian.py:339-366, gaussianoverr.py:406-433.  `st` is the
cast suffered by a value stored into the copied array `temp = np.array(pars)`: the identity for
floats, truncation if `pars` are all integers. -/
noncomputable def toInternal (st : ℝ → ℝ) (mw : ℝ) (p : P) (inF : String) : Res (Option P) :=
  if inF = "internal" then .ok (some ⟨p.pos, st (fold p.wid), |p.area|⟩)
  else if inF = "pwa" then
    if p.wid > mw then .error .transformation
    else .ok ((arcsin? (2 * p.wid ^ 2 / mw ^ 2 - 1)).map (fun a => ⟨p.pos, st a, p.area⟩))
  else if inF = "mu_sigma_area" then
    let fwhm := p.wid * sigma2fwhm
    if fwhm > mw then .error .transformation
    else .ok ((arcsin? (2 * fwhm ^ 2 / mw ^ 2 - 1)).map (fun a => ⟨p.pos, st a, p.area⟩))
  else .error .value

/-- Conversion from the internal format — gaussian.py:369-377, gaussianoverr.py:436-444. -/
noncomputable def fromInternal (st : ℝ → ℝ) (mw : ℝ) (p : P) (outF : String) : Res P :=
  if outF = "internal" then .ok p
  else if outF = "pwa" then
    .ok ⟨p.pos, st (Real.sqrt (0.5 * (Real.sin p.wid + 1) * mw ^ 2)), p.area⟩
  else if outF = "mu_sigma_area" then
    .ok ⟨p.pos, st (Real.sqrt (0.5 * (Real.sin p.wid + 1) * mw ^ 2) / sigma2fwhm), p.area⟩
  else .error .value

/-- `_transform_parametersraw` — gaussian.py:308-380, gaussianoverr.py:374-447 (identical in both
classes).  `none` means that a parameter is NaN. -/
noncomputable def transformWith (st : ℝ → ℝ) (mw : ℝ) (p : P) (inF outF : String) :
    Res (Option P) :=
  if inF = outF ∧ inF ≠ "internal" then .ok (some p)
  else match toInternal st mw p inF with
    | .error e => .error e
    | .ok none => if outF = "internal" ∨ outF = "pwa" ∨ outF = "mu_sigma_area" then .ok none
        else .error .value
    | .ok (some q) => (fromInternal st mw q outF).map some

/-- The transformation of float parameters. -/
noncomputable def transform (mw : ℝ) (p : P) (inF outF : String) : Res (Option P) :=
  transformWith id mw p inF outF

/-- Truncation towards zero: storing a float into an integer array. -/
noncomputable def truncInt (x : ℝ) : ℝ := if 0 ≤ x then ⌊x⌋ else ⌈x⌉

/-- Rows of `GaussianOverR._jacobianraw` at one `r` — gaussianoverr.py:285-318. -/
noncomputable def jacOverR (mw : ℝ) (p : P) (r : ℝ) (k : ℕ) : ℝ :=
  let sin_p := Real.sin p.wid + 1
  let p0minusr := p.pos - r
  let exp_p := Real.exp (-p0minusr ^ 2 / (c2 mw * sin_p)) / (|r| * c1 mw * Real.sqrt sin_p)
  match k with
  | 0 => -2 * exp_p * p0minusr * |p.area| / (c2 mw * sin_p)
  | 1 => -exp_p * |p.area| * Real.cos p.wid * (c2 mw * sin_p - 2 * p0minusr ^ 2) /
      (2 * c2 mw * sin_p ^ 2)
  | _ => if p.area ≥ 0 then exp_p else -exp_p

/-- `_jacobianraw` on an array: one row per parameter, `None` for the fixed ones.
For GaussianOverR (gaussianoverr.py:284-318) all-`None` if nothing is free; for Gaussian
(gaussian.py:275) the guard evaluates `(free is False).sum()`, i.e. `False.sum()`, which is
AttributeError whatever the arguments. -/
noncomputable def jacobianRaw (s : Shape) (mw : ℝ) (p : P) (r : List ℝ) (free : List Bool) :
    Res (List (Option (List ℝ))) :=
  match s with
  | .gaussian => .error .attribute
  | .overR => .ok ((List.range 3).map (fun k =>
      if free.getD k false then some (r.map (fun x => jacOverR mw p x k)) else none))

/-- Entry `[1,1]` of `GaussianOverR._transform_derivativesraw` — gaussianoverr.py:320-372; the other
entries are those of the identity matrix.  `none`: the method returns `None` (equal formats). -/
noncomputable def derivWidth (mw : ℝ) (p : P) (inF outF : String) : Res (Option ℝ) :=
  if inF = outF then .ok none
  else if inF = "internal" then
    if outF = "pwa" then
      .ok (some (mw / (2 * Real.sqrt 2) * Real.cos p.wid / Real.sqrt (1 + Real.sin p.wid)))
    else if outF = "mu_sigma_area" then
      .ok (some (mw / (2 * Real.sqrt 2 * sigma2fwhm) * Real.cos p.wid /
        Real.sqrt (1 + Real.sin p.wid)))
    else .error .value
  else if inF = "pwa" then
    if outF = "internal" then .ok (some (2 / Real.sqrt (mw ^ 2 - p.wid ^ 2)))
    else if outF = "mu_sigma_area" then .ok (some (1 / sigma2fwhm))
    else .error .value
  else if inF = "mu_sigma_area" then
    if outF = "internal" then
      .ok (some (2 * sigma2fwhm / Real.sqrt (mw ^ 2 - (sigma2fwhm * p.wid) ^ 2)))
    else if outF = "pwa" then .ok (some sigma2fwhm)
    else .error .value
  else .error .value

/-- `max(pars)` — gaussian.py:419-439, gaussianoverr.py:485-516: position and height of the
maximum.  (`len(pars) == 0` is not modelled.) -/
noncomputable def max (s : Shape) (mw : ℝ) (p : P) : Res (ℝ × ℝ) :=
  match transform mw p "internal" "mu_sigma_area" with
  | .error e => .error e
  | .ok none => .error (.other 0)      -- not reachable from the internal format
  | .ok (some t) =>
    match s with
    | .gaussian => .ok (t.pos, value .gaussian mw p t.pos)
    | .overR =>
      if t.pos ^ 2 ≤ 4 * t.wid ^ 2 then .error .value
      else
        let rmax := 0.5 * (t.pos + Real.sqrt (t.pos ^ 2 - 4 * t.wid ^ 2))
        .ok (rmax, value .overR mw p rmax)

/-- The end of `scale_at`: back to the internal format, SrMiseTransformationError becoming
SrMiseScalingError — gaussian.py:233-240, gaussianoverr.py:247-254. -/
noncomputable def finishScale (mw : ℝ) (t : P) : Res (Option P) :=
  match transform mw t "mu_sigma_area" "internal" with
  | .error .transformation => .error .scaling
  | x => x

/-- `Gaussian.scale_at(pars, x, scale)` — gaussian.py:190-240.  `none`: the parameters contain NaN
or infinity. -/
noncomputable def scaleGaussian (mw : ℝ) (p : P) (x scale : ℝ) : Res (Option P) :=
  if scale ≤ 0 then .error .scaling
  else if scale = 1 then .ok (some p)
  else
    let ratio := 1 / scale
    match transform mw p "internal" "mu_sigma_area" with
    | .error e => .error e
    | .ok none => .ok none
    | .ok (some t) =>
      if t.area = 0 then .ok none
      else if x - t.pos = 0 then
        -- division by zero: the denominator is ±inf, so `area2 = sigma2 = 0`
        if t.wid = 0 then .ok none else finishScale mw ⟨t.pos, 0, 0⟩
      else
        let den := 2 * Real.log ratio * t.wid ^ 2 / (x - t.pos) ^ 2 + 1
        if den < 0 then .ok none
        else if den = 0 then .error .scaling   -- `area2 = sigma2 = inf` exceeds `maxwidth`
        else
          let area2 := Real.sqrt (t.area ^ 2 / den)
          finishScale mw ⟨t.pos, t.wid * area2 / t.area, area2⟩

/-- `GaussianOverR.scale_at(pars, x, scale)` — gaussianoverr.py:190-254.  Simplification: when the
denominator vanishes the model answers `none`, where numpy's infinity may instead exceed `maxwidth`
and raise. -/
noncomputable def scaleOverR (mw : ℝ) (p : P) (x scale : ℝ) : Res (Option P) :=
  if scale ≤ 0 then .error .scaling
  else if scale = 1 then .ok (some p)
  else
    let ratio := 1 / scale
    match transform mw p "internal" "mu_sigma_area" with
    | .error e => .error e
    | .ok none => .ok none
    | .ok (some t) =>
      match max .overR mw p with
      | .error .value => .error .scaling
      | .error e => .error e
      | .ok (rmax, _) =>
        if t.wid = 0 ∨ rmax = 0 then .ok none
        else
          let lrp := Real.log ratio + (x - rmax) * (x - 2 * t.pos + rmax) / (2 * t.wid ^ 2)
          let den := x - rmax + rmax * lrp
          let q := 0.5 * rmax * (x - rmax) ^ 2 / den
          if den = 0 ∨ q ≤ 0 then .ok none
          else
            let sigma2 := Real.sqrt q
            let mu2 := (sigma2 ^ 2 + rmax ^ 2) / rmax
            let area2 := t.area * (sigma2 / t.wid) *
              Real.exp (-(rmax - t.pos) ^ 2 / (2 * t.wid ^ 2)) /
              Real.exp (-(rmax - mu2) ^ 2 / (2 * sigma2 ^ 2))
            finishScale mw ⟨mu2, sigma2, area2⟩

end Verif.Peaks
