import Mathlib.Data.List.Basic
import Mathlib.Order.Lattice
import Mathlib.Algebra.Group.Nat.Defs
import Mathlib.Tactic.Common

/-!
# Python/numpy vocabulary shared by the models

Exceptions and contiguous slices.  Not part of diffpy.srmise itself.
-/

namespace Verif.Py

/-- The exception classes the modelled code raises. -/
inductive Err
  | value            -- ValueError
  | type             -- TypeError
  | index            -- IndexError
  | key              -- KeyError
  | attribute        -- AttributeError
  | name             -- NameError
  | notImplemented   -- NotImplementedError
  | fit              -- SrMiseFitError
  | estimation       -- SrMiseEstimationError
  | staticOwner      -- SrMiseStaticOwnerError
  | transformation   -- SrMiseTransformationError
  | scaling          -- SrMiseScalingError
  | undefinedCov     -- SrMiseUndefinedCovarianceError
  | dataFormat       -- SrMiseDataFormatError
  | qmax             -- SrMiseQmaxError
  | other (n : ℕ)    -- any other exception
  deriving DecidableEq, Repr

/-- Result of a call that may raise. -/
abbrev Res (α : Type) := Except Err α

/-- `slice(a, b)` applied to a sequence of length `n`: the half-open range of indices.  `none` is
`slice(None)` / `slice(0, n)`.  Simplification: negative bounds and steps are not modelled (the
code only builds slices with non-negative bounds). -/
def bounds (n : ℕ) : Option (ℕ × ℕ) → ℕ × ℕ
  | none => (0, n)
  | some (a, b) => (min a n, max (min a n) (min b n))

/-- `seq[slice]`. -/
def getSlice {α : Type} (l : List α) (rng : Option (ℕ × ℕ)) : List α :=
  let b := bounds l.length rng
  (l.drop b.1).take (b.2 - b.1)

/-- `arr[slice] = vals`.  Simplification: numpy would broadcast a single value; here a length
mismatch is always ValueError. -/
def setSlice {α : Type} (l : List α) (rng : Option (ℕ × ℕ)) (vals : List α) : Res (List α) :=
  let b := bounds l.length rng
  if vals.length = b.2 - b.1 then .ok (l.take b.1 ++ vals ++ l.drop b.2) else .error .value

theorem bounds_le (n : ℕ) (rng : Option (ℕ × ℕ)) : (bounds n rng).1 ≤ (bounds n rng).2 ∧ (bounds n rng).2 ≤ n := by
  cases rng with
  | none => simp [bounds]
  | some p => obtain ⟨a, b⟩ := p; simp only [bounds]; omega

theorem length_getSlice {α : Type} (l : List α) (rng : Option (ℕ × ℕ)) :
    (getSlice l rng).length = (bounds l.length rng).2 - (bounds l.length rng).1 := by
  have := bounds_le l.length rng
  simp only [getSlice, List.length_take, List.length_drop]; omega

theorem setSlice_ok {α : Type} (l : List α) (rng : Option (ℕ × ℕ)) (vals : List α)
    (h : vals.length = (getSlice l rng).length) :
    ∃ out, setSlice l rng vals = .ok out ∧ out.length = l.length ∧
      ∀ i, out[i]? = if (bounds l.length rng).1 ≤ i ∧ i < (bounds l.length rng).2
        then vals[i - (bounds l.length rng).1]? else l[i]? := by
  have hb := bounds_le l.length rng
  rw [length_getSlice] at h
  refine ⟨_, by simp only [setSlice]; rw [if_pos h], ?_, ?_⟩
  · simp only [List.length_append, List.length_take, List.length_drop]; omega
  · intro i
    set lo := (bounds l.length rng).1
    set hi := (bounds l.length rng).2
    rw [List.append_assoc]
    by_cases h1 : i < lo
    · rw [List.getElem?_append_left (by rw [List.length_take]; omega), List.getElem?_take_of_lt h1,
        if_neg (by omega)]
    · have hlo : (l.take lo).length = lo := by rw [List.length_take]; omega
      rw [List.getElem?_append_right (by omega), hlo]
      by_cases h2 : i < hi
      · rw [List.getElem?_append_left (by omega), if_pos (by omega)]
      · rw [List.getElem?_append_right (by omega), if_neg (by omega), List.getElem?_drop]
        congr 1; omega

theorem getElem?_getSlice {α : Type} (l : List α) (rng : Option (ℕ × ℕ)) (i : ℕ)
    (h : (bounds l.length rng).1 ≤ i) (h2 : i < (bounds l.length rng).2) :
    (getSlice l rng)[i - (bounds l.length rng).1]? = l[i]? := by
  have hb := bounds_le l.length rng
  simp only [getSlice]
  rw [List.getElem?_take_of_lt (by omega), List.getElem?_drop]
  congr 1; omega

end Verif.Py
