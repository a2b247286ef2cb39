import Verif.Units.Objects
import Verif.PdfExtract.Model

/-!
# Specification for C106: `PDFPeakExtraction` in other units

Coordinates are multiplied by `a`, intensities by `k`, and wave vectors (`qmax`) divided by `a`.
-/

set_option linter.unusedSectionVars false

namespace Verif.Parts.Units

open Verif.Py Verif.PeakList Verif.Parts.ModelCluster Verif.Parts.Extract Verif.Extraction Verif.Pdf Verif.Parts.PdfExtract

variable {K : Type} [Field K] [LinearOrder K]

/-- The extraction variables of `PDFPeakExtraction` in the new units. -/
def Change.pvars (u : Change K) (s : PPX K) : PPX K :=
  { s with
    base := u.vars s.base
    qmax := s.qmax.map (fun q => q / u.a)
    qmaxReported := s.qmaxReported.map (fun q => q / u.a)
    qmaxFromData := s.qmaxFromData.map (fun q => q / u.a) }

/-- A `PDFPeakExtraction` in the new units. -/
def Change.pobj (u : Change K) (o : PObj K) : PObj K := ⟨u.pvars o.vars, u.heap o.heap, o.extracted.map u.cluster, o.kind⟩

/-- Resampling and ripples in the new units: `S'` does what `S` does. -/
structure SamplerAlike (u : Change K) (S S' : Sampler K) : Prop where
  pi : S'.pi = S.pi
  errorscale : ∀ q n s d, S'.errorscale (q / u.a) n s (u.a * d) = S.errorscale q n s d
  arange : ∀ s t d, S'.arange (u.a * s) (u.a * t) (u.a * d) = u.xs (S.arange s t d)
  resample : ∀ x y r, S'.resample (u.xs x) (u.ys y) (u.xs r) = (S.resample x y r).map u.ys
  interp : ∀ v x e, S'.interp (u.a * v) (u.xs x) (u.ys e) = u.k * S.interp v x e
  ripple : ∀ q o, S'.ripple (q / u.a) (u.fn o) = u.fn (S.ripple q o)
  isRipple : ∀ o, S'.isRipple (u.fn o) = S.isRipple o
  units : ∀ q o, u.w (S.ripple q o) = u.w o

end Verif.Parts.Units
