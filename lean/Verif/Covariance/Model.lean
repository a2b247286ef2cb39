import Verif.Parts.Model
import Mathlib.Analysis.Real.Sqrt
import Mathlib.Algebra.BigOperators.Group.Finset.Basic

/-!
# Model of `ModelCovariance` (`src/diffpy/srmise/modelcluster.py:42-403`)

A square matrix is its size and its entries.  Simplification: indices are non-negative (Python's
negative indices are modelled only where the code itself uses one, `parts="baseline"`).
-/

namespace Verif.Parts.Covariance

open Verif.Py

variable {K : Type}

/-- A square matrix. -/
structure Mat (K : Type) where
  n : ℕ
  e : ℕ → ℕ → K

/-- `M[i, j]`. -/
def Mat.get (M : Mat K) (i j : ℕ) : Res K :=
  if i < M.n ∧ j < M.n then .ok (M.e i j) else .error .index

/-- A Python dict as the list of its assignments, last first. -/
abbrev Dict (α β : Type) := List (α × β)

/-- `d[k]`, `none` when the key is missing. -/
def Dict.get? {α β : Type} [DecidableEq α] (d : Dict α β) (k : α) : Option β :=
  match d with
  | [] => none
  | (a, b) :: t => if a = k then some b else Dict.get? t k

/-- The attributes of a `ModelCovariance` — modelcluster.py:56-69; `mmap[i]` is an `arange`, here its
first number and length. -/
structure MC (K : Type) where
  cov : Option (Mat K)
  model : Option (List (Part K))
  mmap : Dict ℕ (ℕ × ℕ)
  pmap : Dict (ℕ × ℕ) ℕ
  ipmap : Dict ℕ (ℕ × ℕ)

/-- `ModelCovariance()` and `clear()` — modelcluster.py:56-76. -/
def MC.empty : MC K := ⟨none, none, [], [], []⟩

/-- Inner loop over the parameters of part `i`: `cnt` parameters left, at index `j` — modelcluster.py:
117-120. -/
def mapPars (i : ℕ) : ℕ → ℕ → ℕ → MC K → MC K × ℕ
  | 0, _, n, st => (st, n)
  | cnt + 1, j, n, st =>
    mapPars i cnt (j + 1) (n + 1)
      { st with pmap := ((i, j), n) :: st.pmap, ipmap := (n, (i, j)) :: st.ipmap }

/-- The maps — modelcluster.py:113-120. -/
def mapParts : List (Part K) → ℕ → ℕ → MC K → MC K × ℕ
  | [], _, n, st => (st, n)
  | p :: ps, i, n, st =>
    let (st', n') := mapPars i p.pars.length 0 n { st with mmap := (i, (n, p.npars true)) :: st.mmap }
    mapParts ps (i + 1) n' st'

/-- `M[i, j] = v`. -/
def setEnt (e : ℕ → ℕ → K) (i j : ℕ) (v : K) : ℕ → ℕ → K :=
  fun a b => if a = i ∧ b = j then v else e a b

/-- Inner loop of the expansion, over columns `j`, with `rawj` — modelcluster.py:134-137. -/
def expandCols (cov : ℕ → ℕ → K) (i rawi : ℕ) : List Bool → ℕ → ℕ → (ℕ → ℕ → K) → (ℕ → ℕ → K)
  | [], _, _, e => e
  | true :: fs, j, rawj, e => expandCols cov i rawi fs (j + 1) (rawj + 1) (setEnt e i j (cov rawi rawj))
  | false :: fs, j, rawj, e => expandCols cov i rawi fs (j + 1) rawj e

/-- Outer loop of the expansion, over rows `i`, with `rawi` — modelcluster.py:128-138. -/
def expandRows (cov : ℕ → ℕ → K) (free : List Bool) :
    List Bool → ℕ → ℕ → (ℕ → ℕ → K) → (ℕ → ℕ → K)
  | [], _, _, e => e
  | true :: fs, i, rawi, e =>
    expandRows cov free fs (i + 1) (rawi + 1) (expandCols cov i rawi free 0 0 e)
  | false :: fs, i, rawi, e => expandRows cov free fs (i + 1) rawi e

/-- `setcovariance(model, cov)` — modelcluster.py:78-138; `cov` is a `rows × cols` array.
`np.concatenate` of no arrays is ValueError, after the model has been stored. -/
def setcovariance [Zero K] (st : MC K) (ps : List (Part K)) (rows cols : ℕ) (cov : ℕ → ℕ → K) :
    Res Unit × MC K :=
  if rows ≠ cols then (.error .value, st)
  else if rows ≠ npars ps true ∧ rows ≠ npars ps false then (.error .value, st)
  else
    let st := { st with model := some ps }
    if ps = [] then (.error .value, st)
    else
      let free := ps.flatMap (fun p => p.free)
      let (st, n) := mapParts ps 0 0 st
      if n = rows then (.ok (), { st with cov := some ⟨n, cov⟩ })
      else (.ok (), { st with cov := some ⟨n, expandRows cov free free 0 0 (fun _ _ => 0)⟩ })

/-- How a caller designates a variable: an integer, or a (part, parameter) tuple. -/
inductive Var
  | num (n : ℕ)
  | pair (i j : ℕ)

/-- `self.pmap[i] if i in self.pmap else i`, used as an index.  A tuple that is not in the map would
index the array by a tuple (numpy fancy indexing, not modelled: `.other 1`). -/
def MC.index (st : MC K) : Var → Res ℕ
  | .num n => .ok n
  | .pair i j => match Dict.get? st.pmap (i, j) with
    | some n => .ok n
    | none => .error (.other 1)

/-- `getcovariance(i, j)` — modelcluster.py:295-321. -/
def MC.getcovariance (st : MC K) (i j : Var) : Res K :=
  match st.cov with
  | none => .error .undefinedCov
  | some M =>
    match st.index i, st.index j with
    | .ok a, .ok b => M.get a b
    | .error e, _ => .error e
    | _, .error e => .error e

/-- `part_idx, param_idx = i if i in self.pmap else self.ipmap[i]` — modelcluster.py:272, 291. -/
def MC.locate (st : MC K) : Var → Res (ℕ × ℕ)
  | .pair i j => match Dict.get? st.pmap (i, j) with
    | some _ => .ok (i, j)
    | none => .error .key
  | .num n => match Dict.get? st.ipmap n with
    | some ij => .ok ij
    | none => .error .key

/-- `getvalue(i)` — modelcluster.py:265-273. -/
def MC.getvalue (st : MC K) (v : Var) : Res K :=
  match st.locate v with
  | .error e => .error e
  | .ok (i, j) => match st.model with
    | none => .error .type
    | some ps => match ps[i]? with
      | none => .error .index
      | some p => p.get (.idx j)

/-- `getuncertainty(i)` — modelcluster.py:275-293; `none` is NaN. -/
noncomputable def getuncertainty (st : MC ℝ) (v : Var) : Res (Option ℝ) :=
  match st.locate v with
  | .error e => .error e
  | .ok _ => match st.getcovariance v v with
    | .error e => .error e
    | .ok c => .ok (if c < 0 then none else some (Real.sqrt c))

/-- `getcorrelation(i, j)` — modelcluster.py:230-263; `none` is NaN. -/
noncomputable def getcorrelation (st : MC ℝ) (i j : Var) : Res (Option ℝ) :=
  match st.cov with
  | none => .error .undefinedCov
  | some M =>
    match st.index i, st.index j with
    | .ok a, .ok b =>
      match M.get a a, M.get b b, M.get a b with
      | .ok va, .ok vb, .ok c =>
        if va = 0 ∨ vb = 0 then .ok (some 0)
        else if va < 0 ∨ vb < 0 then .ok none
        else .ok (some (c / (Real.sqrt va * Real.sqrt vb)))
      | .error e, _, _ => .error e
      | _, .error e, _ => .error e
      | _, _, .error e => .error e
    | .error e, _ => .error e
    | _, .error e => .error e

/-- The pairs `i < j < n` in the order of the loops — modelcluster.py:362-363. -/
def pairs (n : ℕ) : List (ℕ × ℕ) :=
  (List.range n).flatMap (fun i => (List.range' (i + 1) (n - (i + 1))).map (fun j => (i, j)))

/-- One turn of the loop of `correlationwarning` — modelcluster.py:364-366. -/
noncomputable def warnStep (st : MC ℝ) (threshold : ℝ) (acc : List ((ℕ × ℕ) × (ℕ × ℕ) × ℝ))
    (ij : ℕ × ℕ) : Res (List ((ℕ × ℕ) × (ℕ × ℕ) × ℝ)) :=
  match getcorrelation st (.num ij.1) (.num ij.2) with
  | .error e => .error e
  | .ok none => .ok acc                       -- NaN is truthy, but `NaN > threshold` is False
  | .ok (some c) =>
    if c ≠ 0 ∧ threshold < |c| then
      match Dict.get? st.ipmap ij.1, Dict.get? st.ipmap ij.2 with
      | some a, some b => .ok (acc ++ [(a, b, c)])
      | _, _ => .error .key
    else .ok acc

/-- `correlationwarning(threshold)` — modelcluster.py:340-368. -/
noncomputable def correlationwarning (st : MC ℝ) (threshold : ℝ) :
    Res (List ((ℕ × ℕ) × (ℕ × ℕ) × ℝ)) :=
  match st.cov with
  | none => .error .undefinedCov
  | some M => (pairs M.n).foldlM (warnStep st threshold) []

/-! ### transform -/

/-- The identity matrix. -/
def delta [Zero K] [One K] : ℕ → ℕ → K := fun a b => if a = b then 1 else 0

/-- `g[start:stop, start:stop] = subg` — modelcluster.py:223. -/
def setBlock (g : ℕ → ℕ → K) (start cnt : ℕ) (sub : ℕ → ℕ → K) : ℕ → ℕ → K :=
  fun a b => if (start ≤ a ∧ a < start + cnt) ∧ (start ≤ b ∧ b < start + cnt) then
    sub (a - start) (b - start) else g a b

/-- Which parts to transform — modelcluster.py:178-186. -/
inductive Which
  | all
  | peaks
  | baseline
  | parts (l : List ℤ)

def Which.list (n : ℕ) : Which → List ℤ
  | .all => (List.range n).map (fun (i : ℕ) => (i : ℤ))
  | .peaks => (List.range (n - 1)).map (fun (i : ℕ) => (i : ℤ))
  | .baseline => [-1]
  | .parts l => l

/-- Gradient block and new part — modelcluster.py:204-220.  `D` is `transform_derivatives` of the
part's owner (basefunction.py:247-287) for the two formats. -/
def subTransform [Zero K] [One K] (D : Part K → Res (ℕ → ℕ → K)) (inF outF : Option String)
    (p : Part K) : (ℕ → ℕ → K) × Part K :=
  let sub := match D p with | .ok g => g | .error _ => delta
  match p.owner.transform p.pars inF outF with
  | .ok q => (sub, { p with pars := q })
  | .error _ => (delta, p)

/-- The loop over the parts — modelcluster.py:200-223.  An empty `mmap[i]` has no element 0. -/
def gradLoop [Zero K] [One K] (D : Part K → Res (ℕ → ℕ → K)) (inF outF : Option String)
    (mmap : Dict ℕ (ℕ × ℕ)) : List ℤ → (ℕ → ℕ → K) → List (Part K) →
      Res (ℕ → ℕ → K) × List (Part K)
  | [], g, ps => (.ok g, ps)
  | i :: is, g, ps =>
    if i < 0 then (.error .key, ps)
    else match Dict.get? mmap i.toNat with
      | none => (.error .key, ps)
      | some (start, cnt) =>
        if cnt = 0 then (.error .index, ps)
        else match ps[i.toNat]? with
          | none => (.error .index, ps)
          | some p =>
            let (sub, p') := subTransform D inF outF p
            gradLoop D inF outF mmap is (setBlock g start cnt sub) (ps.set i.toNat p')

/-- Product of two matrices of size `n`. -/
def mul [NonUnitalNonAssocSemiring K] (n : ℕ) (A B : ℕ → ℕ → K) : ℕ → ℕ → K :=
  fun a b => ∑ k ∈ Finset.range n, A a k * B k b

/-- `transform(in_format, out_format, parts=...)` — modelcluster.py:140-228.  The new covariance is
`g * cov.transpose() * g`. -/
def transform [NonAssocSemiring K] (D : Part K → Res (ℕ → ℕ → K)) (inF outF : Option String)
    (st : MC K) (w : Which) : Res Unit × MC K :=
  match st.cov with
  | none => (.error .undefinedCov, st)
  | some M =>
    match st.model with
    | none => (.error .type, st)
    | some ps =>
      match gradLoop D inF outF st.mmap (w.list ps.length) delta ps with
      | (.error e, ps') => (.error e, { st with model := some ps' })
      | (.ok g, ps') =>
        (.ok (), { st with model := some ps',
                           cov := some ⟨M.n, mul M.n (mul M.n g (fun a b => M.e b a)) g⟩ })

end Verif.Parts.Covariance
