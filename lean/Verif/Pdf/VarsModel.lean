import Verif.Extraction.Vars

/-!
# Model of the variables of `PDFPeakExtraction` (`src/diffpy/srmise/pdfpeakextraction.py:60-253`)
-/

namespace Verif.Pdf

open Verif.Py Verif.Extraction

variable {K : Type}

/-- The members of `PDFPeakExtraction` — pdfpeakextraction.py:108-122. -/
structure PPX (K : Type) where
  base : PX K := {}
  qmax : Option K := none
  nyquist : Option Bool := none
  scale : Option Bool := none
  supersample : Option K := none
  qmaxReported : Option K := none
  qmaxFromData : Option K := none
  deriving DecidableEq

/-- The argument of `qmax=`. -/
inductive QArg (K : Type)
  | automatic
  | value (v : Option K)
  deriving DecidableEq

/-- A keyword argument of `PDFPeakExtraction.setvars`. -/
inductive PKw (K : Type)
  | base (k : Kw K)
  | dg (v : EffDy K)
  | qmax (v : QArg K)
  | nyquist (v : Option Bool)
  | scale (v : Option Bool)
  | supersample (v : K)

/-- `"dg" in kwds`. -/
def isDg : PKw K → Bool | .dg _ => true | _ => false
/-- `"effective_dy" in kwds`. -/
def isEff : PKw K → Bool | .base (.effective_dy _) => true | _ => false

/-- The value of a `dg` argument as an `effective_dy` argument — pdfpeakextraction.py:168-173. -/
def dgToEff : PKw K → Option (PKw K)
  | .dg v => some (.base (.effective_dy v))
  | _ => none

/-- `kwds["effective_dy"] = kwds.pop("dg")` — pdfpeakextraction.py:168-173: the new key comes last. -/
def moveDg (kws : List (PKw K)) : List (PKw K) :=
  kws.filter (fun k => !isDg k) ++ kws.filterMap dgToEff

/-- `kwds["qmax"] = self.qmax_fromdata` for "automatic" — pdfpeakextraction.py:176-182. -/
def resolveQ (fromData : Option K) (k : PKw K) : PKw K :=
  match k with
  | .qmax .automatic => .qmax (.value fromData)
  | k => k

/-- `setattr` for one variable; `none` for an unknown name. -/
def psetOne (s : PPX K) : PKw K → Option (PPX K)
  | .base k => (setOne s.base k).map (fun b => { s with base := b })
  | .dg _ => none
  | .qmax (.value v) => some { s with qmax := v }
  | .qmax .automatic => some s
  | .nyquist v => some { s with nyquist := v }
  | .scale v => some { s with scale := v }
  | .supersample v => some { s with supersample := some v }

/-- The loop of `PeakExtraction.setvars` on this class — peakextraction.py:162-171. -/
def psetLoop : List (PKw K) → PPX K → Res Unit × PPX K
  | [], s => (.ok (), s)
  | k :: ks, s =>
    match psetOne s k with
    | none => (.error .value, s)
    | some s' => psetLoop ks s'

section

variable [Field K] [LinearOrder K]

/-- The default of `qmax` — pdfpeakextraction.py:205-216. -/
def chooseQmax (s : PPX K) : K :=
  match s.qmax with
  | some q => q
  | none => match s.qmaxReported with
    | some q => q
    | none => s.qmaxFromData.getD 0

/-- The default of `cres` (before the base class supplies its own) — pdfpeakextraction.py:228-231. -/
def chooseCres (pi qmax : K) (cres : Option K) : Option K :=
  match cres with
  | some c => some c
  | none => if 0 < qmax then some (pi / qmax) else none

/-- `defaultvars()` — pdfpeakextraction.py:189-253, without arguments; `pi` is `np.pi`. -/
def pdefaultvars (pi : K) (D : Defaults K) (s : PPX K) : Res Unit × PPX K :=
  let qmax := chooseQmax s
  let s := { s with
    qmax := some qmax
    nyquist := some (s.nyquist.getD (decide (0 < qmax)))
    scale := some (s.scale.getD false)
    supersample := some (s.supersample.getD 4) }
  let b := s.base
  let b := { b with
    cres := chooseCres pi qmax b.cres
    pf := some (b.pf.getD (D.gaussianOverR (7 / 10))) }
  let r := defaultvars D b
  (r.1, { s with base := r.2 })

/-- `setvars(**kwds)` — pdfpeakextraction.py:124-187. -/
def psetvars (pi : K) (D : Defaults K) (s : PPX K) (kws : List (PKw K)) : Res Unit × PPX K :=
  if kws.any isDg && kws.any isEff then (.error .value, s)
  else
    let kws := if kws.any isDg then moveDg kws else kws
    if kws.any (fun k => match k with | .qmax .automatic => true | _ => false) && s.qmaxFromData.isNone then
      (.error .qmax, s)
    else
      let kws := kws.map (resolveQ s.qmaxFromData)
      if kws.any (fun k => match k with | .supersample v => decide (v < 1) | _ => false) then (.error .value, s)
      else match psetLoop kws s with
        | (.error e, s') => (.error e, s')
        | (.ok (), s') => pdefaultvars pi D s'

end

/-! ### The Nyquist loop of `extract` -/

/-- The loop of `extract` that resamples and prunes — pdfpeakextraction.py:473-520.  `ext` is the current
model, `npars` its number of free parameters, `width` is `r1[-1] - r1[0]`, `body dr ext` is resampling at `dr`,
fitting and pruning.  The result carries the last sampling interval.  `fuel` bounds the number of passes
(`none`: not finished). -/
def nyquistLoop [Field K] [LinearOrder K] {M : Type} (npars : M → ℕ) (body : K → M → M) (width nyq : K) :
    ℕ → M → Option (K × M)
  | 0, _ => none
  | fuel + 1, ext =>
    let total := npars ext
    let dr := if width / nyq ≤ (total : K) then 9999 / 10000 * width / total else nyq
    let ext' := body dr ext
    if dr = nyq then some (dr, ext')
    else if npars ext' = total then some (dr, ext')
    else nyquistLoop npars body width nyq fuel ext'

/-! ### Metadata -/

/-- A field of the metadata — pdfpeakextraction.py:643-649. -/
inductive MetaField | filename | nyquist | qmax | qmaxReported | qmaxFromData | scale | supersample
  deriving DecidableEq

/-- Its name. -/
def MetaField.name : MetaField → List Char
  | .filename => "filename".toList
  | .nyquist => "nyquist".toList
  | .qmax => "qmax".toList
  | .qmaxReported => "qmax_reportedbypdf".toList
  | .qmaxFromData => "qmax_fromdata".toList
  | .scale => "scale".toList
  | .supersample => "supersample".toList

/-- The fields in the order in which they are written and read. -/
def MetaField.all : List MetaField := [.filename, .nyquist, .qmax, .qmaxReported, .qmaxFromData, .scale, .supersample]

/-- `writemetadata()` — pdfpeakextraction.py:640-652; `repr` is Python's. -/
def writeMeta {V : Type} (repr : V → List Char) (v : MetaField → V) : List Char :=
  (MetaField.all.map (fun f => f.name ++ '=' :: repr (v f) ++ ['\n'])).flatten

/-- The lines of a string. -/
def splitLines : List Char → List (List Char)
  | [] => [[]]
  | c :: cs =>
    if c = '\n' then [] :: splitLines cs
    else match splitLines cs with
      | [] => [[c]]
      | l :: ls => (c :: l) :: ls

/-- `re.search(r"^name=(.*)$", metastr, re.M)`: the rest of the first line that starts with `name=`. -/
def searchField (name : List Char) (s : List Char) : Option (List Char) :=
  (splitLines s).findSome? (fun l => if (name ++ ['=']).isPrefixOf l then some (l.drop (name.length + 1)) else none)

/-- `readmetadata(metastr)` — pdfpeakextraction.py:654-718: the fields are assigned one after the other; a missing
one raises SrMiseDataFormatError.  `ev` is `eval(… .strip())`. -/
def readMeta {V : Type} (ev : List Char → Res V) (s : List Char) : List MetaField → (MetaField → V) → Res Unit × (MetaField → V)
  | [], cur => (.ok (), cur)
  | f :: fs, cur =>
    match searchField f.name s with
    | none => (.error .dataFormat, cur)
    | some t =>
      match ev t with
      | .error e => (.error e, cur)
      | .ok v => readMeta ev s fs (fun g => if g = f then v else cur g)

end Verif.Pdf
