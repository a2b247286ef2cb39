import Verif.Text.AloneMain
import Verif.Function.Props

/-!
# Model of the functions of a cluster as a family of objects built on one another

`src/diffpy/srmise/basefunction.py:403-540`, `src/diffpy/srmise/modelcluster.py:543-586, 681-702`.  Here the functions that a cluster
refers to are objects with a class, a module, metadata and perhaps a base (`Function.Fn`), so that `safefunctionlist`, which
`ModelCluster.writestr` calls, and the text of each function are those of the code instead of arguments.
-/

namespace Verif.Text

open Verif.Py Verif.Parts Verif.Function

variable {K V : Type}

/-- What `writestr` writes of a function besides its base: `repr` of class and module, metadata as key and text
— basefunction.py:409-433. -/
structure FnData where
  name : List Char
  module : List Char
  pairs : List (List Char × List Char)
  deriving DecidableEq

/-- The functions there are: the object of each identity. -/
abbrev Family := ℕ → Fn FnData

/-- The object has the identity it is found by, and so has its base. -/
structure Proper (F : Family) : Prop where
  ident : ∀ i, (F i).id = i
  closed : ∀ i b, (F i).base? = some b → F b.id = b

/-- `safefunctionlist(list(set(ids)))` — modelcluster.py:547-550, 557; `set` gives the elements in any order. -/
def safeOf (F : Family) (mk : Fn FnData → Owner K) (set : List ℕ → List ℕ) (ids : List ℕ) : List (Owner K) :=
  (safefunctionlist ((set ids).map F)).map mk

/-- `f.writestr(baselist)` — basefunction.py:403-433: ValueError if the base is not in the list. -/
def textOf (F : Family) (fs : List (Owner K)) (o : Owner K) : Res FnText :=
  match (F o.id).base? with
  | none => .ok ⟨(F o.id).data.name, (F o.id).data.module, none, (F o.id).data.pairs⟩
  | some b =>
    match ownerIndex fs b.id with
    | none => .error .value
    | some i => .ok ⟨(F o.id).data.name, (F o.id).data.module, some i, (F o.id).data.pairs⟩

/-! ### Specification -/

/-- The same class, module and metadata, and bases that are alike. -/
def Alike : Fn FnData → Fn FnData → Prop
  | .prim _ d, .prim _ e => d = e
  | .over _ d b, .over _ e c => d = e ∧ Alike b c
  | _, _ => False

/-- The same object under other identities, all the way down. -/
def renameFn (σ : ℕ → ℕ) : Fn FnData → Fn FnData
  | .prim i d => .prim (σ i) d
  | .over i d b => .over (σ i) d (renameFn σ b)

/-- What a function does is decided by class, metadata and base. -/
structure Behaves (mk : Fn FnData → Owner K) : Prop where
  ident : ∀ f, (mk f).id = f.id
  same : ∀ f g, Alike f g → mk g = { mk f with id := g.id }

/-- What the texts of class, module and metadata evaluate to. -/
structure ReadData (V : Type) where
  name : V
  module : V
  pairs : Dict V

/-- The texts of class, module and metadata can be read: as in C76, but nothing about the base. -/
structure DataReadable (P : Python K V) (d : FnData) (r : ReadData V) : Prop where
  keys : ∀ e ∈ d.pairs, IsKey e.1 ∧ Plain e.1
  distinct : ("function".toList :: "module".toList :: "base".toList :: d.pairs.map Prod.fst).Nodup
  lines : ∀ t ∈ d.name :: d.module :: d.pairs.map Prod.snd, OneLine t
  noeq : ∀ t ∈ d.name :: d.module :: d.pairs.map Prod.snd, '=' ∉ firstWord t
  name : P.eval d.name = some r.name
  mod : P.eval d.module = some r.module
  pairs : List.Forall₂ (fun e v => v.1 = e.1 ∧ P.eval e.2 = some v.2) d.pairs r.pairs

/-- Python reads `None` and the numbers below `n`. -/
structure ReadsNumbers (P : Python K V) (n : ℕ) : Prop where
  none : ∃ v, P.eval "None".toList = some v ∧ P.isNone v = true
  number : ∀ i, i < n → ∃ v, P.eval (reprNat i) = some v ∧ P.isNone v = false ∧ P.index v = some (i : ℤ)

/-- The call of the class, given module, metadata and base, makes a function of this class with these metadata and this base
— basefunction.py:473-495.  New objects are numbered from `k`. -/
structure Constructs (F : Family) (mk : Fn FnData → Owner K) (val : FnData → ReadData V)
    (call : FnRead V → List (Owner K) → Res (Owner K)) (k : ℕ) : Prop where
  prim : ∀ i, (F i).base? = none → ∀ done : List (Fn FnData),
    call ⟨(val (F i).data).name, (val (F i).data).module, none, (val (F i).data).pairs⟩ (done.map mk) =
      .ok (mk (.prim (k + done.length) (F i).data))
  over : ∀ i b, (F i).base? = some b → ∀ (done : List (Fn FnData)) (j : ℕ) (c : Fn FnData), done[j]? = some c → Alike b c →
    call ⟨(val (F i).data).name, (val (F i).data).module, some j, (val (F i).data).pairs⟩ (done.map mk) =
      .ok (mk (.over (k + done.length) (F i).data c))

end Verif.Text
