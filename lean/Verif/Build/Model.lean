import Verif.Print.Model

/-!
# Model of `actualize` (`src/diffpy/srmise/peaks/base.py:111-120`, `baselines/base.py:111-120`)
-/

namespace Verif.Parts.Build

open Verif.Py

variable {K : Type}

/-- `function.actualize(pars, in_format, free, removable, static_owner)` — peaks/base.py:111-120, baselines/base.py:111-120: the parameters are
converted to the internal format and a part is made of them (`ModelPart.__init__`, modelparts.py:503-544).  Numbers of floating-point type (for
integers see `c31_integer_parameters_truncated`). -/
def actualize (o : Owner K) (pars : List K) (inFormat : Option String) (free : Option (List Bool)) (removable static : Bool) : Res (Part K) :=
  match o.transform pars inFormat (some "internal") with
  | .error e => .error e
  | .ok v => Part.new o v free removable static false

/-- A peak with the default arguments except the format — peaks/base.py:111-118. -/
def peakFrom (o : Owner K) (pars : List K) (inFormat : Option String) : Res (Part K) := actualize o pars inFormat none true false

/-- A peak with the default arguments: the format is `default_input` — peaks/base.py:114. -/
def peak (o : Owner K) (pars : List K) : Res (Part K) := peakFrom o pars (some "default_input")

/-- All peaks of a list of parameters, `Peaks([pf.actualize(p, in_format) for pf, p in ...])`. -/
def peaksFrom (inFormat : Option String) : List (Owner K × List K) → Res (List (Part K))
  | [] => .ok []
  | (o, v) :: l =>
    match peakFrom o v inFormat with
    | .error e => .error e
    | .ok p =>
      match peaksFrom inFormat l with
      | .error e => .error e
      | .ok ps => .ok (p :: ps)

end Verif.Parts.Build
