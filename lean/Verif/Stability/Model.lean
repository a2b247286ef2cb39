import Verif.PdfExtract.Model

/-!
# Model of `PeakStability` (`src/diffpy/srmise/peakstability.py:29-222`)

Not modelled: plots, printed output, pickling (`load` ends in `readstr`, which never returns, see C78).
-/

namespace Verif.Parts.Stability

open Verif.Py Verif.Extraction Verif.Pdf Verif.Parts.Extract Verif.Parts.ModelCluster Verif.Parts.PdfExtract

variable {K : Type}

/-- The baseline of a result: none, the baseline object `b` itself, or another object. -/
inductive BRef (K : Type)
  | none
  | shared (b : ℕ)
  | own (p : Part K)

/-- A result `[e, model, baseline, dr]` — peakstability.py:216. -/
structure Entry (K : Type) where
  e : K
  model : List (Part K)
  bl : BRef K
  dr : K

/-- The members — peakstability.py:36-39. -/
structure Stab (K : Type) where
  results : List (Entry K)
  ppe : PObj K
  current : Option ℤ

/-- The effect of `extract` on objects, for each object before the call: the objects after it, and whether the baseline
of the extracted model is the very object the variable `baseline` refers to.  (Those of the code are in `Repeat/Model.lean`.) -/
structure Effects (K : Type) where
  heap : PObj K → Heap K
  shares : PObj K → Bool

/-- The baseline object now. -/
def BRef.get (H : Heap K) : BRef K → Option (Part K)
  | .none => Option.none
  | .shared b => some (H.base b)
  | .own p => some p

/-- `self.ppe.extracted.baseline` as a reference. -/
def refOf (shared : Bool) (s : PPX K) (c : Cluster K) : BRef K :=
  match c.baseline with
  | none => .none
  | some p =>
    if shared then (match s.base.baseline with | some (.inst b) => .shared b | _ => .own p) else .own p

/-- `l[i]` with an integer. -/
def pyGet {α : Type} (l : List α) (i : ℤ) : Option α :=
  if 0 ≤ i then l[i.toNat]? else if -(l.length : ℤ) ≤ i then l[(i + l.length).toNat]? else none

/-- `ppe.clearcalc()` — peakextraction.py:115-118. -/
def clearcalc (o : PObj K) : PObj K := { o with extracted := none, kind := none }

section

variable [Field K] [LinearOrder K]

/-- `dr` — peakstability.py:213-215.  (0/0 for a single point: 0 here, NaN in numpy; `resampledata` then raises in
either case.) -/
def spacing (c : Cluster K) : Res K :=
  match c.slice with
  | none => .error .attribute
  | some s =>
    match (s.get c.r).head?, (s.get c.r).getLast? with
    | some a, some b => .ok ((b - a) / (((s.get c.r).length : K) - 1))
    | _, _ => .error .index

/-- Reading the extracted model and appending the result — peakstability.py:213-216. -/
def record (shared : Bool) (e : K) (s : Stab K) : Res Unit × Stab K :=
  match s.ppe.extracted with
  | none => (.error .attribute, s)
  | some c =>
    match spacing c with
    | .error x => (.error x, s)
    | .ok dr => (.ok (), { s with results := s.results ++ [⟨e, c.model, refOf shared s.ppe.vars c, dr⟩] })

/-- The extraction at one uncertainty — peakstability.py:207-216. -/
def runOne (W : World K) (S : Sampler K) (D : Defaults K) (A : Effects K) (n : ℕ) (e : K) (s : Stab K) :
    Option (Res Unit × Stab K) :=
  match psetvars S.pi D s.ppe.vars [.base (.effective_dy (.scalar e))] with
  | (.error x, v) => some (.error x, { s with ppe := { clearcalc s.ppe with vars := v } })
  | (.ok (), v) =>
    let o := { clearcalc s.ppe with vars := v }
    match extract W S D n o with
    | none => none
    | some (.error x, o') => some (.error x, { s with ppe := { o' with heap := A.heap o } })
    | some (.ok (), o') => some (record (A.shares o) e { s with ppe := { o' with heap := A.heap o } })

/-- The loop — peakstability.py:205-216. -/
def runLoop (W : World K) (S : Sampler K) (D : Defaults K) (A : Effects K) (n : ℕ) : List K → Stab K →
    Option (Res Unit × Stab K)
  | [], s => some (.ok (), s)
  | e :: es, s =>
    match runOne W S D A n e s with
    | none => none
    | some (.error x, s') => some (.error x, s')
    | some (.ok (), s') => runLoop W S D A n es s'

/-- `run(err)` — peakstability.py:192-222; `none`: an extraction needs more than `n` resamplings. -/
def run (W : World K) (S : Sampler K) (D : Defaults K) (A : Effects K) (n : ℕ) (err : List K) (s : Stab K) :
    Option (Res Unit × Stab K) := runLoop W S D A n err { s with results := [] }

/-- The data resampled for a result, and its cluster — peakstability.py:146-157. -/
def clusterFor (W : World K) (S : Sampler K) (D : Defaults K) (o : PObj K) (r : Entry K) : Res (Cluster K) := do
  let P ← complete o.vars
  let g ← resampledata S D o.vars r.dr
  newCluster W (jobFor o.heap P g) r.model (r.bl.get o.heap) g.1 g.2.1 g.2.2 none

/-- Making a result the active one — peakstability.py:144-157. -/
def activate (W : World K) (S : Sampler K) (D : Defaults K) (r : Entry K) (o : PObj K) : Res Unit × PObj K :=
  match o.vars.base.x with
  | none => (.error .type, o)
  | some x =>
    match psetvars S.pi D o.vars [.base (.effective_dy (.array (x.map (fun _ => r.e))))] with
    | (.error e, v) => (.error e, { o with vars := v })
    | (.ok (), v) =>
      match clusterFor W S D { o with vars := v } r with
      | .error e => (.error e, { o with vars := v })
      | .ok c => (.ok (), { o with vars := v, extracted := some c })

/-- `setcurrent(idx)` — peakstability.py:131-159. -/
def setcurrent (W : World K) (S : Sampler K) (D : Defaults K) (idx : Option ℤ) (s : Stab K) : Res Unit × Stab K :=
  match idx with
  | none => (.ok (), { s with current := none, ppe := clearcalc s.ppe })
  | some i =>
    match pyGet s.results i with
    | none => (.error .index, { s with current := some i })
    | some r =>
      match activate W S D r s.ppe with
      | (u, o) => (u, { s with current := some i, ppe := o })

/-- `for i in results: self.setcurrent(i); self.plot()` — peakstability.py:180-188, without the plots. -/
def showAll (W : World K) (S : Sampler K) (D : Defaults K) : List (Option ℤ) → Stab K → Res Unit × Stab K
  | [], s => (.ok (), s)
  | i :: l, s =>
    match setcurrent W S D i s with
    | (.error e, s') => (.error e, s')
    | (.ok (), s') => showAll W S D l s'

/-- `animate(results)` — peakstability.py:161-190, without the plots. -/
def animate (W : World K) (S : Sampler K) (D : Defaults K) (idx : Option (List ℤ)) (s : Stab K) : Res Unit × Stab K :=
  let l := idx.getD ((List.range s.results.length).map (fun k : ℕ => (k : ℤ)))
  showAll W S D (some 0 :: (l.map some ++ [s.current])) s

end

end Verif.Parts.Stability
