import Verif.Covariance.Blocks
import Verif.Parts.Props

/-!
# A fit that is asked for the covariance

`ModelParts.fit(..., cov, cov_format)` — modelparts.py:60-220: the fit (Verif.Parts.fit), then `setcovariance` and
`transform` of the object that was passed.
-/

set_option linter.unusedSectionVars false

namespace Verif.Parts.Covariance

open Verif.Py

variable {K : Type} [Field K]

/-- `C[a, b]` for a matrix given by its rows. -/
def entries (C : List (List K)) (a b : ℕ) : K := (C.getD a []).getD b 0

/-- `ModelParts.fit` with a covariance object `st` — modelparts.py:60-220.  Without a free parameter the fit returns
before the covariance is touched (modelparts.py:107-109); SrMiseUndefinedCovarianceError is logged (217-218). -/
def covFit (D : Part K → Res (ℕ → ℕ → K)) (outF : Option String) (F : Flt K) (nr : ℕ) (l1 l2 : Lsq K) (st : MC K)
    (ps : List (Part K)) : Res Unit × List (Part K) × MC K :=
  match Parts.fit F ps nr true l1 l2 with
  | (.error e, ps') => (.error e, ps', st)
  | (.ok none, ps') => (.ok (), ps', st)
  | (.ok (some C), ps') =>
    match setcovariance st ps' C.length (C.headD []).length (entries C) with
    | (.error e, st') => (.error e, ps', st')
    | (.ok (), st') =>
      match transform D (some "internal") outF st' .all with
      | (.error .undefinedCov, st'') => (.ok (), ps', st'')
      | (.error e, st'') => (.error e, ps', st'')
      | (.ok (), st'') => (.ok (), ps', st'')

end Verif.Parts.Covariance
