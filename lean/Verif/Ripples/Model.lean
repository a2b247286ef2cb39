import Verif.Py.Basic
import Verif.Pdf.Model
import Mathlib.Analysis.SpecialFunctions.Log.Base
import Mathlib.Analysis.SpecialFunctions.Complex.Circle

/-!
# Model of `TerminationRipples` (`src/diffpy/srmise/peaks/terminationripples.py`)

Numbers are real; the Fourier transforms are the sums that define them.  The base function is given by its value at a
point (`base` for given parameters) and its partial derivatives.
-/

namespace Verif.Ripples

open Verif.Py Verif.Pdf

/-- The attributes `qmax`, `extension`, `supersample` — terminationripples.py:58-61. -/
structure Rip where
  qmax : ℝ
  extension : ℝ
  supersample : ℝ

/-- `exp(2 pi i m / P)`. -/
noncomputable def root (P : ℕ) (m : ℤ) : ℂ := Complex.exp (2 * Real.pi * Complex.I * m / P)

/-- `fp.fft(s, P)` for `P ≥ len(s)`: zeros are appended. -/
noncomputable def fft (P : ℕ) (s : List ℝ) : List ℂ :=
  (List.range P).map (fun k : ℕ => ∑ j ∈ Finset.range s.length, ((s.getD j 0 : ℝ) : ℂ) * root P (-((j : ℤ) * k)))

/-- `fp.ifft(l)`. -/
noncomputable def ifft (l : List ℂ) : List ℂ :=
  (List.range l.length).map (fun n : ℕ =>
    (∑ k ∈ Finset.range l.length, l.getD k 0 * root l.length ((k : ℤ) * n)) / l.length)

/-- The index that a slice bound `i` means in a sequence of length `n`. -/
def clip (n : ℕ) (i : ℤ) : ℕ := if i < 0 then (i + n).toNat else min i.toNat n

/-- `l[lo:hi] = 0`. -/
def zeroSlice (l : List ℂ) (lo hi : ℤ) : List ℂ :=
  l.mapIdx (fun k v => if clip l.length lo ≤ k ∧ k < clip l.length hi then 0 else v)

/-- `int(2 ** np.ceil(np.log2(n)))` — terminationripples.py:355. -/
noncomputable def padlen (n : ℕ) : ℕ := 2 ^ ⌈Real.logb 2 n⌉₊

/-- `dq` — terminationripples.py:357.  (Infinite for `P = 1`; 0 here.  `qmax/dq` is 0 in either case.) -/
noncomputable def dq (P : ℕ) (delta : ℝ) : ℝ := 2 * Real.pi / (((P : ℝ) - 1) * delta)

/-- `lowidx` — terminationripples.py:358. -/
noncomputable def lowidx (qmax : ℝ) (P : ℕ) (delta : ℝ) : ℤ := ⌈qmax / dq P delta⌉

/-- `cut_freq(sequence, delta)` — terminationripples.py:339-367; ValueError for an empty sequence (from `fft`). -/
noncomputable def cutFreq (qmax : ℝ) (s : List ℝ) (delta : ℝ) : Res (List ℝ) :=
  if s = [] then .error .value
  else
    let P := padlen s.length
    let low := lowidx qmax P delta
    let f := ifft (zeroSlice (fft P s) low (P + 1 - low))
    .ok ((f.take s.length).map Complex.re)

/-- `extend_grid(r, dr)` — terminationripples.py:369-390. -/
noncomputable def extendGrid (R : Rip) (r : List ℝ) (dr : ℝ) : Res (List ℝ × (ℕ × ℕ)) :=
  match r.head?, r.getLast? with
  | some a, some b =>
    let ext := R.extension * 2 * Real.pi / R.qmax
    let left := (arange (a - dr) (max 0 (a - ext - dr)) (-dr)).reverse
    let right := arange (b + dr) (b + ext + dr) dr
    let e := left ++ r ++ right
    .ok (e, (left.length, e.length - right.length))
  | _, _ => .error .index

/-- `2 pi / (supersample qmax)` — terminationripples.py:287. -/
noncomputable def drSuper (R : Rip) : ℝ := 2 * Real.pi / (R.supersample * R.qmax)

/-- The filtered base function on the extended grid, cut back to `rpart` — terminationripples.py:323-325. -/
noncomputable def rippled (R : Rip) (base : ℝ → ℝ) (rpart : List ℝ) (dr : ℝ) : Res (List ℝ) := do
  let g ← extendGrid R rpart dr
  let v ← cutFreq R.qmax (g.1.map base) dr
  pure (getSlice v (some g.2))

/-- `l[::n]` for `n ≥ 1`. -/
def every {α : Type} (n : ℕ) (l : List α) : List α :=
  (List.range ((l.length + n - 1) / n)).filterMap (fun k => l[k * n]?)

/-- `(r[-1] - r[0]) / (len(r) - 1)` — terminationripples.py:314. -/
noncomputable def step (r : List ℝ) : Res ℝ :=
  match r.head?, r.getLast? with
  | some a, some b => .ok ((b - a) / ((r.length : ℝ) - 1))
  | _, _ => .error .index

/-- `segments` — terminationripples.py:315; `int(nan)` for a single point is ValueError.  (Coordinates that do not
increase are not modelled: ValueError.) -/
noncomputable def segments (R : Rip) (r : List ℝ) (dr : ℝ) : Res ℕ :=
  if r.length = 1 then .error .value
  else if 0 < ⌈dr / drSuper R⌉ then .ok ⌈dr / drSuper R⌉.toNat
  else .error .value

/-- The points in the range, `n` times as dense — terminationripples.py:318-320. -/
noncomputable def refined (rpart : List ℝ) (n : ℕ) (d : ℝ) : Res (List ℝ) :=
  if 1 < n then
    match rpart.head?, rpart.getLast? with
    | some a, some b => .ok (arange a (b + d / 2) d)
    | _, _ => .error .index
  else .ok rpart

/-- `value(peak, r, rng)` for a sequence — terminationripples.py:263-332; `own`: whether the peak belongs to this
function. -/
noncomputable def value (R : Rip) (own : Bool) (base : ℝ → ℝ) (r : List ℝ) (rng : Option (ℕ × ℕ)) : Res (List ℝ) :=
  if own then do
    let dr ← step r
    let n ← segments R r dr
    let rp ← refined (getSlice r rng) n (dr / n)
    let v ← rippled R base rp (dr / n)
    setSlice (r.map (· * 0)) rng (every n v)
  else .error .value

/-- `value(peak, x)` for a number — terminationripples.py:288-293. -/
noncomputable def valueAt (R : Rip) (own : Bool) (base : ℝ → ℝ) (x : ℝ) : Res ℝ :=
  if own then do
    let v ← rippled R base [x] (drSuper R)
    match v.head? with
    | some y => .ok y
    | none => .error .index
  else .error .value

/-- `dr` of `jacobian` — terminationripples.py:236-240. -/
noncomputable def jacStep (R : Rip) (r : List ℝ) : Res ℝ := if 1 < r.length then step r else .ok (drSuper R)

/-- One row of the Jacobian; `none` is None, for a fixed parameter — terminationripples.py:246-251. -/
noncomputable def jacRow (R : Rip) (r : List ℝ) (rng : Option (ℕ × ℕ)) (dr : ℝ) (d : Option (ℝ → ℝ)) : Res (Option (List ℝ)) :=
  match d with
  | none => .ok none
  | some f => do
    let v ← rippled R f (getSlice r rng) dr
    let out ← setSlice (r.map (· * 0)) rng v
    pure (some out)

/-- `jacobian(peak, r, rng)` for a sequence — terminationripples.py:209-253; `d` are the partial derivatives of the base
function by its parameters, none for a fixed one.  The grid is extended once, before the rows (so an empty range raises
even without free parameters). -/
noncomputable def jacobian (R : Rip) (own : Bool) (d : List (Option (ℝ → ℝ))) (r : List ℝ) (rng : Option (ℕ × ℕ)) :
    Res (List (Option (List ℝ))) :=
  if own then do
    let dr ← jacStep R r
    let _ ← extendGrid R (getSlice r rng) dr
    d.mapM (jacRow R r rng dr)
  else .error .value

/-- `jacobian(peak, x)` for a number — terminationripples.py:254-261: `len(x)` raises TypeError, and its handler reads
`output`, which has no value then. -/
def jacobianAt (own : Bool) : Res (List (Option ℝ)) := if own then .error .name else .error .value

end Verif.Ripples
