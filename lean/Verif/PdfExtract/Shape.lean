import Verif.PdfExtract.Fit
import Verif.Extract.Shape

/-!
# Property C98 for `PDFPeakExtraction`

## Specification

A part is `Sound` if it has as many values and flags as its function has parameters (`Whole`), provided that its function
keeps the number of parameters when it changes their format; the functions of the package do.
-/

set_option linter.unusedSectionVars false

namespace Verif.Parts.PdfExtract

open Verif.Py Verif.Extraction Verif.Pdf Verif.Parts.Extract Verif.Parts.ModelCluster
open Verif.Parts.Covariance (Sized)

variable {K : Type} [Field K] [LinearOrder K] [IsStrictOrderedRing K]
variable {W : World K} {S : Sampler K} {D : Defaults K}

/-- As many values and flags as the function has parameters. -/
def Sound (p : Part K) : Prop := Sized p → Whole p

/-! ## Lemmas -/

/-- `Sound`, of the key. -/
def SoundKey (k : Extract.Key K) : Prop :=
  (∀ v i o q, k.1.transform v i o = .ok q → q.length = v.length) → k.2.1.length = k.1.npars ∧ k.2.2.2.2.1

theorem soundKey_iff (p : Part K) : SoundKey (key p) ↔ Sound p := by
  unfold SoundKey Sound key
  constructor
  · intro h hs
    obtain ⟨h1, h2⟩ := h hs
    exact ⟨(h2 hs).1, h1, (h2 hs).2, hs⟩
  · intro h hs
    obtain ⟨h1, h2, h3, -⟩ := h hs
    exact ⟨h2, fun _ => ⟨h1, h3⟩⟩

theorem sound_of_key {p q : Part K} (h : key p = key q) (hq : Sound q) : Sound p := by
  rw [← soundKey_iff, h, soundKey_iff]; exact hq

theorem New.sound {F : ℕ → Owner K} {fs : List ℕ} {p : Part K} (h : New F fs p) : Sound p := by
  intro hs
  obtain ⟨-, -, -, h4, h5⟩ := h
  exact ⟨(h5 hs).1, by rw [h4]; simp, (h5 hs).2, hs⟩

theorem sound_ripples (hR : Ripples S) {q : K} {p : Part K} (h : Sound p) : Sound (ripplesIf S q p) := by
  unfold ripplesIf withRipples
  split
  · split
    · exact h
    · intro hs
      have hs' : Sized p := by
        intro v i o r e
        apply hs v i o r
        simp only [hR.format]
        exact e
      obtain ⟨h1, h2, h3, -⟩ := h hs'
      exact ⟨h1.trans (hR.npars _ _).symm, h2.trans (hR.npars _ _).symm, h3, hs⟩
  · exact h

theorem sound_of_same {p q : Part K} (h : SamePeak p q) (hq : Sound q) : Sound p :=
  sound_of_key ((samePeak_iff p q).1 h) hq

/-! ## Theorems -/

/-- **C98.** Every peak that `PDFPeakExtraction.extract` leaves, and the baseline, has as many values and flags as its function has
parameters, whatever was fitted, resampled and replaced by functions with ripples, provided that this holds of the initial peaks and
the baseline that the user gave. -/
theorem c98_pdf_extract (hS : Sane W) (hE : Estimates W) (hU : Uniform S) (hR : Ripples S) {n : ℕ} {o o' : PObj K}
    (hN : o.heap.peaks D.noPeaks = []) {x y : List K} (hr : Ready o.vars.base x y)
    (hss : ∀ v, o.vars.supersample = some v → 0 < v) (hm : ∀ i, ∀ p ∈ o.heap.peaks i, Sound p) (hb : ∀ i, Sound (o.heap.base i))
    (h : extract W S D n o = some (.ok (), o')) :
    ∃ c b, o'.extracted = some c ∧ (∀ p ∈ c.model, Sound p) ∧ c.baseline = some b ∧ Sound b := by
  obtain ⟨-, P, eff, c, -, -, hc, hout⟩ := (c81_extract hS hE hU hR n o o' _ hN x y hr hss h).2 rfl
  obtain ⟨b, hb1, hb2⟩ := hout.base
  refine ⟨c, b, hc, ?_, hb1, sound_of_same hb2 (hb _)⟩
  intro p hp
  rcases hout.peaks with ⟨m, hm', hs⟩ | ⟨q, hq, hk⟩
  · have : key p ∈ ((o.heap.peaks P.ip ++ m).map (ripplesIf S P.q)).map key := hs.subset (List.mem_map.2 ⟨p, hp, rfl⟩)
    obtain ⟨r, hr', e⟩ := List.mem_map.1 this
    obtain ⟨q, hq, rfl⟩ := List.mem_map.1 hr'
    refine sound_of_key e.symm (sound_ripples hR ?_)
    rcases List.mem_append.1 hq with hq | hq
    · exact hm _ q hq
    · exact New.sound (fs := o.heap.funcs P.pf) (hm' q hq)
  · have : key p ∈ [key q] := hk ▸ List.mem_map.2 ⟨p, hp, rfl⟩
    exact sound_of_key (List.mem_singleton.1 this) (New.sound (fs := o.heap.funcs P.pf) hq)

/-- **C98.** The same of `PDFPeakExtraction.fit`. -/
theorem c98_pdf_fit (hS : Sane W) (hU : Uniform S) {o o' : PObj K} {x y : List K} (hr : Ready o.vars.base x y)
    (hm : ∀ i, ∀ p ∈ o.heap.peaks i, Sound p) (hb : ∀ i, Sound (o.heap.base i)) (h : fit W S D o = (.ok (), o')) :
    ∃ c b, o'.extracted = some c ∧ (∀ p ∈ c.model, Sound p) ∧ c.baseline = some b ∧ Sound b := by
  obtain ⟨-, P, eff, c, -, -, hc, hout⟩ := (c82_fit hS hU o o' _ x y hr h).2 rfl
  obtain ⟨b, hb1, hb2⟩ := hout.base
  refine ⟨c, b, hc, ?_, hb1, sound_of_same hb2 (hb _)⟩
  intro p hp
  have : key p ∈ (o.heap.peaks P.ip).map key := hout.peaks.subset (List.mem_map.2 ⟨p, hp, rfl⟩)
  obtain ⟨q, hq, e⟩ := List.mem_map.1 this
  exact sound_of_key e.symm (hm _ q hq)

/-- **C81.** With positive qmax, every peak of the result that was not given as initial peak has termination ripples and all its
parameters free — except a single peak that was estimated again in place of a lost model. -/
theorem c81_found_peaks_ripple (hS : Sane W) (hE : Estimates W) (hU : Uniform S) (hR : Ripples S) {n : ℕ} {o o' : PObj K}
    (hN : o.heap.peaks D.noPeaks = []) {x y : List K} (hr : Ready o.vars.base x y)
    (hss : ∀ v, o.vars.supersample = some v → 0 < v) (h : extract W S D n o = some (.ok (), o')) :
    ∃ P c, From D o.vars P ∧ o'.extracted = some c ∧ (0 < P.q → (∃ p, c.model = [p] ∧ New W.func (o.heap.funcs P.pf) p) ∨
      ∀ p ∈ c.model, (∃ q ∈ o.heap.peaks P.ip, SamePeak p (ripplesIf S P.q q)) ∨
        (p.removable = true ∧ p.free = List.replicate p.owner.npars true ∧
          ∃ f ∈ o.heap.funcs P.pf, p.owner = S.ripple P.q (W.func f) ∨ (p.owner = W.func f ∧ S.isRipple (W.func f) = true))) := by
  obtain ⟨-, P, eff, c, hf, -, hc, hout⟩ := (c81_extract hS hE hU hR n o o' _ hN x y hr hss h).2 rfl
  refine ⟨P, c, hf, hc, fun hpos => ?_⟩
  rcases hout.peaks with ⟨m, hm', hs⟩ | ⟨q, hq, hk⟩
  · right
    intro p hp
    have : key p ∈ ((o.heap.peaks P.ip ++ m).map (ripplesIf S P.q)).map key := hs.subset (List.mem_map.2 ⟨p, hp, rfl⟩)
    obtain ⟨r, hr', e⟩ := List.mem_map.1 this
    obtain ⟨q, hq, rfl⟩ := List.mem_map.1 hr'
    rcases List.mem_append.1 hq with hq | hq
    · exact Or.inl ⟨q, hq, (samePeak_iff _ _).2 e.symm⟩
    · right
      obtain ⟨⟨f, hf1, ho⟩, a2, a3, a4, -⟩ := hm' q hq
      obtain ⟨s1, s2, s3, -, -⟩ := (samePeak_iff _ _).2 e.symm
      unfold ripplesIf withRipples at s1 s2 s3
      rw [if_pos hpos] at s1 s2 s3
      by_cases hrp : S.isRipple q.owner = true
      · rw [if_pos (Or.inr hrp)] at s1 s2 s3
        exact ⟨s3.trans a2, by rw [s2, s1, a4], f, hf1, Or.inr ⟨s1.trans ho, ho ▸ hrp⟩⟩
      · rw [if_neg (by simp [a3, hrp])] at s1 s2 s3
        exact ⟨s3.trans a2, by rw [s2, s1, a4]; simp only [hR.npars], f, hf1, Or.inl (by rw [s1, ho])⟩
  · left
    cases hc' : c.model with
    | nil => rw [hc'] at hk; cases hk
    | cons p l =>
      rw [hc'] at hk
      simp only [List.map_cons, List.cons.injEq, List.map_eq_nil_iff] at hk
      refine ⟨p, by rw [hk.2], ?_⟩
      rw [← supplied_iff, hk.1]
      exact hq

theorem dot_sound (i : ℕ) : Sound (dotHeap.base i) := fun h => ⟨rfl, rfl, rfl, h⟩

theorem dots_sound (i : ℕ) (p : Part ℚ) (hp : p ∈ dotHeap.peaks i) : Sound p := by
  simp only [dotHeap] at hp
  split at hp
  · rcases List.mem_cons.1 hp with rfl | hp
    · exact fun h => ⟨rfl, rfl, rfl, h⟩
    · cases hp
  · cases hp

/-- Instances: the objects of C81 and C82 meet the hypotheses (both runs return there). -/
example {o' : PObj ℚ} (h : extract dotWorld linSampler dotDef 5 (pdfObj [0, 3, 5, 0, 0, 0, 0]) = some (.ok (), o')) :=
  c98_pdf_extract dotWorld_sane dotWorld_estimates linSampler_uniform linSampler_ripples rfl (pdfVars_ready _ rfl)
    (by intro v hv; simp only [pdfObj, pdfVars, Option.some.injEq] at hv; rw [← hv]; norm_num) dots_sound dot_sound h

example {o' : PObj ℚ} (h : extract dotWorld linSampler dotDef 5 (pdfObj [0, 3, 5, 0, 0, 0, 0]) = some (.ok (), o')) :=
  c81_found_peaks_ripple dotWorld_sane dotWorld_estimates linSampler_uniform linSampler_ripples rfl (pdfVars_ready _ rfl)
    (by intro v hv; simp only [pdfObj, pdfVars, Option.some.injEq] at hv; rw [← hv]; norm_num) h

example {o' : PObj ℚ} (h : fit dotWorld linSampler dotDef
    ⟨{ pdfVars [0, 3, 5, 0, 0, 0, 0] with base.initialPeaks := some 1 }, dotHeap, none, none⟩ = (.ok (), o')) :=
  c98_pdf_fit dotWorld_sane linSampler_uniform (x := [0, 1, 2, 3, 4, 5, 6]) (y := [0, 3, 5, 0, 0, 0, 0])
    ⟨rfl, rfl, ⟨[1/4, 1/4, 1/4, 1/4, 1/4, 1/4, 1/4], rfl, rfl⟩, by intro e h; simp [pdfVars, dotVars] at h, by decide +kernel, rfl⟩ dots_sound dot_sound h

end Verif.Parts.PdfExtract
