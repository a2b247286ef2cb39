import Verif.Py.Basic
import Mathlib.Data.List.Sort
import Mathlib.Algebra.Order.Ring.Int

/-!
# Model of `src/diffpy/srmise/basefunction.py`

Function objects, their validation, format names, range restriction, and (de)serialisation order.
-/

namespace Verif.Function

open Verif.Py

/-! ### Objects and their bases -/

/-- A `BaseFunction` instance — basefunction.py:73-153: identity `id`, its class name and metadata
(opaque `D`), and the function it decorates (`base`, `None` for `prim`).  Functions define no
`__eq__`, so `in`, `index` and `is` compare identities. -/
inductive Fn (D : Type) where
  | prim (id : ℕ) (data : D)
  | over (id : ℕ) (data : D) (base : Fn D)
  deriving DecidableEq, Repr

namespace Fn

variable {D : Type}

/-- `f.base` — basefunction.py:137. -/
def base? : Fn D → Option (Fn D)
  | prim _ _ => none
  | over _ _ b => some b

/-- class name and metadata. -/
def data : Fn D → D
  | prim _ d => d
  | over _ d _ => d

/-- object identity. -/
def id : Fn D → ℕ
  | prim i _ => i
  | over i _ _ => i

end Fn

variable {D : Type} [DecidableEq D]

/-- `safefunction(f, fsafe)` — basefunction.py:518-540; returns the extended list. -/
def safefunction : Fn D → List (Fn D) → List (Fn D)
  | .prim i d, acc => if Fn.prim i d ∈ acc then acc else acc ++ [Fn.prim i d]
  | .over i d b, acc =>
    if Fn.over i d b ∈ acc then acc else safefunction b acc ++ [Fn.over i d b]

/-- `safefunctionlist(fs)` — basefunction.py:499-516. -/
def safefunctionlist (fs : List (Fn D)) : List (Fn D) :=
  fs.foldl (fun acc f => safefunction f acc) []

/-- What `writestr` writes: class and metadata, and the index of the base (`None` without). -/
structure Rec (D : Type) where
  data : D
  base : Option ℕ
  deriving DecidableEq, Repr

/-- `writestr(self, baselist)` — basefunction.py:403-434.  Simplification: the text
`key=repr(value)` is represented by the record it denotes (`eval (repr v) = v` is trusted). -/
def writestr (f : Fn D) (baselist : List (Fn D)) : Res (Rec D) :=
  match f.base? with
  | none => .ok ⟨f.data, none⟩
  | some b => if b ∈ baselist then .ok ⟨f.data, some (baselist.idxOf b)⟩ else .error .value

/-- `factory(functionstr, baselist)` — basefunction.py:436-497; `fresh` is the identity of the new
object.  The bound test is `idx > len(baselist)`. -/
def factory (r : Rec D) (baselist : List (Fn D)) (fresh : ℕ) : Res (Fn D) :=
  match r.base with
  | none => .ok (.prim fresh r.data)
  | some idx =>
    if baselist.length < idx then .error .value
    else match baselist[idx]? with
      | none => .error .index
      | some b => .ok (.over fresh r.data b)

/-- Writing every function of a list against that list — peakextraction.py:611-619,
modelcluster.py:576-585. -/
def writeAll (fs : List (Fn D)) : Res (List (Rec D)) := fs.mapM (fun f => writestr f fs)

/-- Reading functions back: `safebf.append(BaseFunction.factory(s, safebf))` —
peakextraction.py:423-431, modelcluster.py:695-704.  The new object's identity is `k + its index`. -/
def readAll (k : ℕ) : List (Rec D) → List (Fn D) → Res (List (Fn D))
  | [], acc => .ok acc
  | r :: rs, acc =>
    match factory r acc (k + acc.length) with
    | .error e => .error e
    | .ok f => readAll k rs (acc ++ [f])

/-! ### Constructor validation -/

/-- `BaseFunction.__init__` checks — basefunction.py:106-149.  `dict` lists the (key, value) items
(keys distinct because it is a dict, strings by typing); `defaults` the items of
`default_formats`. -/
def initCheck (dict : List (String × ℤ)) (parformats : List String)
    (defaults : List (String × String)) : Res Unit :=
  let vals := (dict.map Prod.snd).mergeSort (fun a b => decide (a ≤ b))
  if vals ≠ (List.range dict.length).map (fun (i : ℕ) => (i : ℤ)) then .error .value
  else if ¬ ("default_input" ∈ defaults.map Prod.fst ∧ "default_output" ∈ defaults.map Prod.fst) then
    .error .value
  else if ¬ (∀ f ∈ defaults.map Prod.snd, f ∈ parformats) then .error .value
  else .ok ()

/-! ### Format names -/

/-- The formats of a function: `parformats` and `default_formats["default_input"/"default_output"]`
— basefunction.py:126-140. -/
structure Formats where
  parformats : List String
  defIn : String
  defOut : String

/-- Resolution of `in_format` — basefunction.py:265-275 and 309-319. -/
def resolveIn (F : Formats) (f : Option String) : String :=
  let f := match f with | none => F.defIn | some s => s
  if f = "default_input" then F.defIn else if f = "default_output" then F.defOut else f

/-- Resolution of `out_format` — basefunction.py:267-279 and 311-323. -/
def resolveOut (F : Formats) (f : Option String) : String :=
  let f := match f with | none => F.defOut | some s => s
  if f = "default_output" then F.defOut else if f = "default_input" then F.defIn else f

/-- The identity matrix `np.identity(n)`. -/
def identity {K : Type} [Zero K] [One K] (n : ℕ) : List (List K) :=
  (List.range n).map (fun i => (List.range n).map (fun j => if i = j then 1 else 0))

/-- `transform_derivatives` — basefunction.py:247-287. -/
def transformDerivatives {K : Type} [Zero K] [One K] (F : Formats) (npars : ℕ)
    (raw : List K → String → String → Res (List (List K)))
    (pars : List K) (inF outF : Option String) : Res (List (List K)) :=
  let i := resolveIn F inF
  let o := resolveOut F outF
  if i ∉ F.parformats then .error .value
  else if o ∉ F.parformats then .error .value
  else if i = o then .ok (identity npars)
  else raw pars i o

/-- `transform_parameters` — basefunction.py:289-332. -/
def transformParameters {K : Type} (F : Formats)
    (raw : List K → String → String → Res (List K))
    (pars : List K) (inF outF : Option String) : Res (List K) :=
  let i := resolveIn F inF
  let o := resolveOut F outF
  if i ∉ F.parformats then .error .value
  else if o ∉ F.parformats then .error .value
  else raw pars i o

/-! ### Range restriction -/

variable {K : Type} [MulZeroClass K]

/-- `value(p, r, rng)` for a sequence `r` — basefunction.py:334-368; `raw pars rpart` is
`_valueraw`. -/
def value (raw : List K → List K → List K) (pars r : List K) (rng : Option (ℕ × ℕ)) :
    Res (List K) :=
  setSlice (r.map (· * 0)) rng (raw pars (getSlice r rng))

/-- `jacobian(p, r, rng)` for a sequence `r` — basefunction.py:213-245; `none` is Python's `None`
for a fixed parameter. -/
def jacobian (raw : List K → List K → List Bool → List (Option (List K)))
    (pars r : List K) (free : List Bool) (rng : Option (ℕ × ℕ)) : Res (List (Option (List K))) :=
  (raw pars (getSlice r rng) free).mapM (fun row =>
    match row with
    | none => .ok none
    | some v => (setSlice (r.map (· * 0)) rng v).map some)

end Verif.Function
