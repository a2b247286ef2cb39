import Verif.Parts.Model

/-!
# Model of `ModelParts.transform` where parts are objects (`src/diffpy/srmise/modelparts.py:438-455`)

`Verif.Parts.transform` converts a list of parts as values.  A `ModelParts` is a list of references: one part may occur in it twice
(`Peaks([p, p])`), or be held by another list as well (slicing and `+` do not copy the parts).
-/

namespace Verif.Parts.Convert

open Verif.Py

variable {K : Type}

/-- The parts by identity. -/
abbrev Store (K : Type) := ℕ → Part K

/-- `p.pars = v` — modelparts.py:450. -/
def Store.put (S : Store K) (a : ℕ) (v : List K) : Store K := fun b => if b = a then { S a with pars := v } else S b

/-- `transform(in_format, out_format)` — modelparts.py:438-455: one part after the other; a ValueError is logged and the part left
(logging is not modelled). -/
def transformAt (S : Store K) : List ℕ → Option String → Option String → Res Unit × Store K
  | [], _, _ => (.ok (), S)
  | a :: as, i, o =>
    match (S a).owner.transform (S a).pars i o with
    | .ok v => transformAt (S.put a v) as i o
    | .error .value => transformAt S as i o
    | .error e => (.error e, S)

end Verif.Parts.Convert
