import Verif.Package.Model
import Verif.Peaks.Shape
import Verif.PdfExtract.Shape

/-!
# Property C99: extraction with the peak functions of the package

## Specification

What a user sees of a peak is position, full width at half maximum and area (format "pwa").
-/

set_option linter.unusedSectionVars false

namespace Verif.Parts.Package

open Verif.Py Verif.PeakList Verif.Extraction Verif.Parts.Extract Verif.Parts.ModelCluster
open Verif.Parts.PdfExtract (PObj From ripplesIf withRipples Ripples realSampler realSampler_uniform)

/-- A peak of a function of the package, possibly with termination ripples: three values of floating-point type. -/
structure PackagePeak (nan : ℝ) (T : Table) (p : Part ℝ) : Prop where
  npars : p.owner.npars = 3
  names : p.owner.dict = [("position", 0), ("width", 1), ("area", 2)]
  format : ∃ f, p.owner.transform = (function nan f (T f)).transform
  pars : p.pars.length = 3
  floats : p.isInt = false

/-- Position `x`, width `w` and area `a` of the peak in the format "pwa", whose width is limited to `mw`. -/
structure Reported (mw : ℝ) (p : Part ℝ) (x w a : ℝ) : Prop where
  pwa : p.owner.transform p.pars (some "internal") (some "pwa") = .ok [x, w, a]
  default : p.owner.transform p.pars (some "default_input") none = .ok [x, w, a]
  position : p.get (.name "position") = .ok x
  width : 0 ≤ w ∧ w ≤ mw
  area : 0 ≤ a

/-- The curve of a peak at position `x` with full width at half maximum `w` and area `a`: the normal density with that width
times the area; for Gaussian/r, divided by the distance from zero. -/
noncomputable def bell (s : Peaks.Shape) (x w a r : ℝ) : ℝ :=
  a / (w / (2 * Real.sqrt (2 * Real.log 2)) * Real.sqrt (2 * Real.pi)) *
    Real.exp (-(r - x) ^ 2 / (2 * (w / (2 * Real.sqrt (2 * Real.log 2))) ^ 2)) / (if s = .gaussian then 1 else |r|)

/-! ## Lemmas -/

variable {nan : ℝ} {T : Table} {N : Numerics ℝ}

theorem resolved_pwa : Function.resolveOut formats (some "pwa") = "pwa" := by decide
theorem resolved_none : Function.resolveOut formats none = "pwa" := by decide
theorem resolved_in : Function.resolveIn formats (some "internal") = "internal" := by decide
theorem resolved_default : Function.resolveIn formats (some "default_input") = "internal" := by decide
theorem resolved_out : Function.resolveOut formats (some "internal") = "internal" := by decide
theorem in_formats : "internal" ∈ formats.parformats ∧ "pwa" ∈ formats.parformats := by decide

theorem to_pwa (nan mw a b c : ℝ) : rawTransform nan mw [a, b, c] "internal" "pwa" = .ok [a, Peaks.fwhmOf mw b, |c|] := by
  unfold rawTransform
  simp only [Peaks.transform_to_pwa]

theorem function_transform (nan : ℝ) (f : ℕ) (s : Peaks.Shape × ℝ) :
    (function nan f s).transform = Function.transformParameters formats (rawTransform nan s.2) := rfl

theorem transform_pwa (nan : ℝ) (f : ℕ) (s : Peaks.Shape × ℝ) (a b c : ℝ) :
    (function nan f s).transform [a, b, c] (some "internal") (some "pwa") = .ok [a, Peaks.fwhmOf s.2 b, |c|] ∧
    (function nan f s).transform [a, b, c] (some "default_input") none = .ok [a, Peaks.fwhmOf s.2 b, |c|] := by
  constructor
  · rw [function_transform]
    unfold Function.transformParameters
    simp only [resolved_pwa, resolved_in]
    rw [if_neg (not_not.2 in_formats.1), if_neg (not_not.2 in_formats.2), to_pwa]
  · rw [function_transform]
    unfold Function.transformParameters
    simp only [resolved_none, resolved_default]
    rw [if_neg (not_not.2 in_formats.1), if_neg (not_not.2 in_formats.2), to_pwa]

theorem rawTransform_length {mw : ℝ} {v q : List ℝ} {i o : String} (h : rawTransform nan mw v i o = .ok q) :
    q.length = v.length := by
  unfold rawTransform at h
  split at h
  · split at h
    · simp at h
    · simp only [Except.ok.injEq] at h; rw [← h]; rfl
    · simp only [Except.ok.injEq] at h; rw [← h]; rfl
  · simp at h

theorem function_sized (nan : ℝ) (f : ℕ) (s : Peaks.Shape × ℝ) (v : List ℝ) (i o : Option String) (q : List ℝ)
    (h : (function nan f s).transform v i o = .ok q) : q.length = v.length := by
  have h' : Function.transformParameters formats (rawTransform nan s.2) v i o = .ok q := h
  unfold Function.transformParameters at h'
  simp only at h'
  split at h'
  · simp at h'
  · split at h'
    · simp at h'
    · exact rawTransform_length h'

theorem get_position {p : Part ℝ} (hd : p.owner.dict = [("position", 0), ("width", 1), ("area", 2)]) {a b c : ℝ} (e : p.pars = [a, b, c]) :
    p.get (.name "position") = .ok a := by
  unfold Part.get
  have h : p.position (.name "position") = .ok 0 := by
    unfold Part.position
    simp [hd]
  rw [h]
  simp [e]

theorem reported_of {f : ℕ} (hT : 0 < (T f).2) {p : Part ℝ} (hf : p.owner.transform = (function nan f (T f)).transform)
    (hd : p.owner.dict = [("position", 0), ("width", 1), ("area", 2)]) (hl : p.pars.length = 3) : ∃ x w a, Reported (T f).2 p x w a := by
  obtain ⟨a, b, c, e⟩ := List.length_eq_three.1 hl
  obtain ⟨h0, h1, -⟩ := Peaks.c32_fwhm_bounds hT b
  obtain ⟨t1, t2⟩ := transform_pwa nan f (T f) a b c
  exact ⟨a, _, _, ⟨by rw [hf, e]; exact t1, by rw [hf, e]; exact t2, get_position hd e, ⟨h0, h1⟩, abs_nonneg c⟩⟩

theorem orNan_length {r : Res (Option Peaks.P)} {v : List ℝ} (h : orNan nan r = .ok v) : v.length = 3 := by
  unfold orNan at h
  split at h
  · simp at h
  · simp only [Except.ok.injEq] at h; rw [← h]; rfl
  · simp only [Except.ok.injEq] at h; rw [← h]; rfl

theorem scaled_length (nan : ℝ) (T : Table) : Scales (scaled nan T) := by
  intro p x s v h
  unfold scaled at h
  split at h
  · rename_i a b c e
    rw [e]
    exact orNan_length h
  · simp at h

/-- What is asked of `argsort` suffices. -/
theorem packaged_sorting (nan : ℝ) (T : Table) (hA : SortsKeys N.as) (hP : PicksOne N.pick) : Sorting (packaged nan T N) :=
  ⟨hA, hP, scaled_length nan T⟩

theorem packaged_guesses (nan : ℝ) (T : Table) (N : Numerics ℝ) : Guesses (packaged nan T N) := by
  intro f r y
  have hin : ∀ a b c : ℝ, ∃ q, (function nan f (T f)).transform [a, b, c] (some "internal") (some "internal") = .ok q ∧ q.length = 3 := by
    intro a b c
    obtain ⟨q, hq, -⟩ := Peaks.c31_normalise (T f).2 ⟨a, b, c⟩
    refine ⟨[q.pos, q.wid, q.area], ?_, rfl⟩
    rw [function_transform]
    unfold Function.transformParameters
    simp only [resolved_out, resolved_in]
    rw [if_neg (not_not.2 in_formats.1), if_neg (not_not.2 in_formats.1)]
    unfold rawTransform
    simp only [hq]
  have hg : (packaged nan T N).guess ((packaged nan T N).func f) r y = orNan nan (Peaks.estimate (T f).1 (T f).2 r y) := rfl
  rw [hg]
  have herr : ∀ e, Peaks.estimate (T f).1 (T f).2 r y = .error e → e = .estimation := by
    intro e h
    unfold Peaks.estimate at h
    simp only at h
    split at h
    · simpa using h.symm
    · split at h
      · simpa using h.symm
      · split at h
        · simpa using h.symm
        · split at h
          · simp at h
          · split at h
            · simp at h
            · simp at h
  cases he : Peaks.estimate (T f).1 (T f).2 r y with
  | error e => left; rw [herr e he]; rfl
  | ok o =>
    right
    cases o with
    | none =>
      obtain ⟨q, h1, h2⟩ := hin nan nan nan
      exact ⟨[nan, nan, nan], q, rfl, h1, h2⟩
    | some v =>
      obtain ⟨q, h1, h2⟩ := hin v.pos v.wid v.area
      exact ⟨[v.pos, v.wid, v.area], q, rfl, h1, h2⟩

theorem reported_new {fs : List ℕ} (hT : ∀ f, 0 < (T f).2) {p : Part ℝ} (h : New (packaged nan T N).func fs p) :
    ∃ f ∈ fs, p.owner = function nan f (T f) ∧ ∃ x w a, Reported (T f).2 p x w a := by
  obtain ⟨⟨f, hf, ho⟩, -, -, -, hs⟩ := h
  have ho' : p.owner = function nan f (T f) := ho
  refine ⟨f, hf, ho', reported_of (hT f) (by rw [ho']) (by rw [ho']; rfl) ?_⟩
  have := (hs (fun v i o q => by rw [ho']; exact function_sized nan f (T f) v i o q)).1
  rw [this, ho']
  rfl

theorem reported_same {p q : Part ℝ} (hT : ∀ f, 0 < (T f).2) (h : SamePeak p q) (hq : PackagePeak nan T q) :
    ∃ f x w a, p.owner.transform = (function nan f (T f)).transform ∧ Reported (T f).2 p x w a := by
  obtain ⟨h1, -, -, -, h5, -⟩ := h
  obtain ⟨f, hf⟩ := hq.format
  have hf' : p.owner.transform = (function nan f (T f)).transform := by rw [h1, hf]
  have hp := (h5.2 (fun _ => ⟨by rw [hq.pars, hq.npars], hq.floats⟩) (fun v i o q => by rw [hf']; exact function_sized nan f (T f) v i o q)).1
  obtain ⟨x, w, a, hr⟩ := reported_of (hT f) hf' (by rw [h1, hq.names]) (by rw [hp, h1, hq.npars])
  exact ⟨f, x, w, a, hf', hr⟩

/-! ## Theorems -/

/-- **C99.** The reported position, width and area of a peak of the package describe its curve: the value at every point is that of
the bell with these three numbers — which is never negative. -/
theorem c99_curve (hT : ∀ f, 0 < (T f).2) {f : ℕ} {p : Part ℝ} (ho : p.owner = function nan f (T f)) {x w a : ℝ}
    (hr : Reported (T f).2 p x w a) (hl : p.pars.length = 3) (r : List ℝ) :
    p.owner.rawValue p.pars r = r.map (bell (T f).1 x w a) ∧ ∀ v ∈ p.owner.rawValue p.pars r, 0 ≤ v := by
  obtain ⟨u, b, c, e⟩ := List.length_eq_three.1 hl
  have h1 := hr.pwa
  rw [ho, e, (transform_pwa nan f (T f) u b c).1] at h1
  simp only [Except.ok.injEq, List.cons.injEq, and_true] at h1
  obtain ⟨rfl, rfl, rfl⟩ := h1
  have hv : ∀ t, Peaks.value (T f).1 (T f).2 (three [u, b, c]) t = bell (T f).1 u (Peaks.fwhmOf (T f).2 b) |c| t := by
    intro t
    unfold bell
    cases hs : (T f).1 with
    | gaussian =>
      rw [Peaks.value_gaussian (hT f)]
      unfold Peaks.gauss Peaks.sigmaOf Peaks.sigma2fwhm three
      simp
    | overR =>
      rw [Peaks.value_overR (hT f)]
      unfold Peaks.gauss Peaks.sigmaOf Peaks.sigma2fwhm three
      simp
  have hval : p.owner.rawValue p.pars r = r.map (bell (T f).1 u (Peaks.fwhmOf (T f).2 b) |c|) := by
    rw [ho, e]
    show r.map (Peaks.value (T f).1 (T f).2 (three [u, b, c])) = _
    exact List.map_congr_left (fun t _ => hv t)
  refine ⟨hval, ?_⟩
  intro v hv'
  rw [hval] at hv'
  obtain ⟨t, -, rfl⟩ := List.mem_map.1 hv'
  have h0 := hr.width.1
  unfold bell
  have : (0 : ℝ) ≤ if (T f).1 = Peaks.Shape.gaussian then 1 else |t| := by split <;> positivity
  positivity

/-- **C99.** Every peak that `extract_single` returns, at any depth, is reported with a width between zero and the greatest width of its
function, and an area that is not negative: for all data, whatever the optimiser does, if the initial peaks are peaks of the
package. -/
theorem c99_extract (hT : ∀ f, 0 < (T f).2) (hA : SortsKeys N.as) (hP : PicksOne N.pick) {H : Heap ℝ} {D : Defaults ℝ}
    (hN : H.peaks D.noPeaks = []) (hm : ∀ i, ∀ p ∈ H.peaks i, PackagePeak nan T p) {n depth : ℕ} {s : PX ℝ} {c : Cluster ℝ}
    {x y : List ℝ} (hr : Ready s x y) (h : extractSingle (codeWorld (packaged nan T N)) H D n depth s = .ok c) :
    ∃ t pf, defaultvars D s = (.ok (), t) ∧ t.pf = some pf ∧ ∀ p ∈ c.model, ∃ f x w a, Reported (T f).2 p x w a ∧
      ((f ∈ H.funcs pf ∧ p.owner = function nan f (T f)) ∨ ∃ q ∈ H.peaks (s.initialPeaks.getD D.noPeaks), p.owner = q.owner) := by
  have hS := packaged_sorting (N := N) nan T hA hP
  obtain ⟨t, pf, ip, ht, hpf, -, rfl, hpr, -⟩ := c69_provenance (c95_sane _ hS) (c95_estimates _).1 hN hr h
  refine ⟨t, pf, ht, hpf, ?_⟩
  intro p hp
  rcases hpr p hp with hn | ⟨q, hq, hs⟩
  · obtain ⟨f, hf, ho, x, w, a, hrep⟩ := reported_new (N := N) hT hn
    exact ⟨f, x, w, a, hrep, Or.inl ⟨hf, ho⟩⟩
  · obtain ⟨f, x, w, a, -, hrep⟩ := reported_same hT hs (hm _ q hq)
    exact ⟨f, x, w, a, hrep, Or.inr ⟨q, hq, hs.1⟩⟩

/-- **C99.** The same of the peaks that `fit_single` leaves. -/
theorem c99_fit_single (hT : ∀ f, 0 < (T f).2) (hA : SortsKeys N.as) (hP : PicksOne N.pick) {D : Defaults ℝ} {o o' : Obj ℝ}
    (hm : ∀ i, ∀ p ∈ o.heap.peaks i, PackagePeak nan T p) {x y : List ℝ} (hr : Ready o.vars x y)
    (h : fitSingle (codeWorld (packaged nan T N)) D o = (.ok (), o')) :
    ∃ c, o'.extracted = some c ∧ ∀ p ∈ c.model, ∃ f x w a, Reported (T f).2 p x w a ∧ ∃ i, ∃ q ∈ o.heap.peaks i, p.owner = q.owner := by
  have hS := packaged_sorting (N := N) nan T hA hP
  obtain ⟨t, c, ip, -, -, h3, -, -, h6, -⟩ := (c72_fit_single (c95_sane _ hS) hr h).2 rfl
  refine ⟨c, h3, ?_⟩
  intro p hp
  have : key p ∈ (o.heap.peaks ip).map key := h6.subset (List.mem_map.2 ⟨p, hp, rfl⟩)
  obtain ⟨q, hq, e⟩ := List.mem_map.1 this
  have hs := (samePeak_iff p q).2 e.symm
  obtain ⟨f, x, w, a, -, hrep⟩ := reported_same hT hs (hm _ q hq)
  exact ⟨f, x, w, a, hrep, ip, q, hq, hs.1⟩

/-- **C99.** With the functions of the package nothing is asked of the estimates: extraction ends in ValueError (`c85_stray`), in TypeError
(`c95_singular`) or with one cluster over the data of the range. -/
theorem c99_search (hA : SortsKeys N.as) (hP : PicksOne N.pick) (hF : Fits (packaged nan T N)) {H : Heap ℝ} {D : Defaults ℝ}
    (hN : H.peaks D.noPeaks = []) {s : PX ℝ} {x y : List ℝ} (hu : Usable D H s x y) :
    extractSingle (codeWorld (packaged nan T N)) H D 3 1 s = .error .value ∨
    extractSingle (codeWorld (packaged nan T N)) H D 3 1 s = .error .type ∨
    ∃ c t, extractSingle (codeWorld (packaged nan T N)) H D 3 1 s = .ok c ∧ defaultvars D s = (.ok (), t) ∧ Result D H s t x y 1 c := by
  rcases c95_search _ (packaged_sorting nan T hA hP) (packaged_guesses nan T N) hF hN hu with h | h | ⟨c, t, -, h1, h2, h3, -⟩
  · exact Or.inl h
  · exact Or.inr (Or.inl h)
  · exact Or.inr (Or.inr ⟨c, t, h1, h2, h3⟩)

/-- **C99.** What `estimatepeak` adds to a cluster: nothing (SrMiseEstimationError) exactly when fewer than three of its points are above the
baseline; otherwise a peak of the first of its functions, whose position lies between two points of the cluster that are above the
baseline, whose width is reported as positive and within the limit, and which is at its position exactly as high as the highest point is above
the baseline. -/
theorem c99_estimate (hT : ∀ f, 0 < (T f).2) {c : Cluster ℝ} {f : ℕ} {fs : List ℕ}
    (hf : c.funcs = f :: fs) {d : List ℝ} (hr : (inSlice c c.r).Pairwise (· < ·)) (hl : (inSlice c c.y).length = (inSlice c c.r).length)
    (hd : d = List.zipWith (fun x y => y - curve (packaged nan T N).val c.baseline.toList x) (inSlice c c.r) (inSlice c c.y)) :
    (((codeWorld (packaged nan T N)).env c).estimate = .error .estimation ↔ (d.filter (fun v => 0 < v)).length < 3) ∧
    (3 ≤ (d.filter (fun v => 0 < v)).length → ∃ p x w a, ((codeWorld (packaged nan T N)).env c).estimate = .ok (some p) ∧
      p.owner = function nan f (T f) ∧ p.removable = true ∧ p.free = [true, true, true] ∧ Reported (T f).2 p x w a ∧ 0 < w ∧
      (∃ i j : ℕ, ∃ ri rj yi yj, (inSlice c c.r)[i]? = some ri ∧ d[i]? = some yi ∧ 0 < yi ∧
        (inSlice c c.r)[j]? = some rj ∧ d[j]? = some yj ∧ 0 < yj ∧ ri ≤ x ∧ x ≤ rj) ∧
      (((T f).1 = .overR → x ≠ 0) → ∃ M ∈ d, (∀ v ∈ d, v ≤ M) ∧ p.owner.rawValue p.pars [x] = [M])) := by
  have hld : (inSlice c c.r).length = d.length := by rw [hd]; simp [hl]
  obtain ⟨h1, h2⟩ := Peaks.c55_estimate (hT f) (T f).1 (inSlice c c.r) d hr
  have hok : 3 ≤ (d.filter (fun v => 0 < v)).length → ∃ p x w a, ((codeWorld (packaged nan T N)).env c).estimate = .ok (some p) ∧
      p.owner = function nan f (T f) ∧ p.removable = true ∧ p.free = [true, true, true] ∧ Reported (T f).2 p x w a ∧ 0 < w ∧
      (∃ i j : ℕ, ∃ ri rj yi yj, (inSlice c c.r)[i]? = some ri ∧ d[i]? = some yi ∧ 0 < yi ∧
        (inSlice c c.r)[j]? = some rj ∧ d[j]? = some yj ∧ 0 < yj ∧ ri ≤ x ∧ x ≤ rj) ∧
      (((T f).1 = .overR → x ≠ 0) → ∃ M ∈ d, (∀ v ∈ d, v ≤ M) ∧ p.owner.rawValue p.pars [x] = [M]) := by
    intro h3
    obtain ⟨q, hq, hbet, hw1, hw2, hw3, hw4, hmax⟩ := h2 hld h3
    obtain ⟨q', hn1, hn2, -, -, hn5, -, hn7, hn8⟩ := Peaks.c31_normalise (T f).2 q
    let p : Part ℝ := ⟨function nan f (T f), [q'.pos, q'.wid, q'.area], [true, true, true], true, false, false⟩
    have hg : ((codeWorld (packaged nan T N)).env c).estimate = .ok (some p) := by
      show guessed (packaged nan T N) c = _
      unfold guessed
      simp only [hf]
      rw [← hd]
      have e1 : (packaged nan T N).guess ((packaged nan T N).func f) (inSlice c c.r) d = .ok [q.pos, q.wid, q.area] := by
        show orNan nan (Peaks.estimate (T f).1 (T f).2 (inSlice c c.r) d) = _
        rw [hq]
        rfl
      have e2 : ((packaged nan T N).func f).transform [q.pos, q.wid, q.area] (some "internal") (some "internal") =
          .ok [q'.pos, q'.wid, q'.area] := by
        show (function nan f (T f)).transform _ _ _ = _
        rw [function_transform]
        unfold Function.transformParameters
        simp only [resolved_out, resolved_in]
        rw [if_neg (not_not.2 in_formats.1), if_neg (not_not.2 in_formats.1)]
        unfold rawTransform
        simp only [hn1]
      rw [e1]
      simp only [bind, Except.bind]
      rw [e2]
      rfl
    obtain ⟨t1, t2⟩ := transform_pwa nan f (T f) q'.pos q'.wid q'.area
    have hb := Peaks.c32_fwhm_bounds (hT f) q'.wid
    refine ⟨p, q'.pos, Peaks.fwhmOf (T f).2 q'.wid, |q'.area|, hg, rfl, rfl, rfl, ⟨t1, t2, get_position (p := p) rfl rfl, ⟨hb.1, hb.2.1⟩, abs_nonneg _⟩, ?_, ?_, ?_⟩
    · rw [hn7]; exact hw3
    · rw [hn2]; exact hbet
    · intro hx
      rw [hn2] at hx
      obtain ⟨M, hM, hle, hval⟩ := hmax hx
      refine ⟨M, hM, hle, ?_⟩
      show [Peaks.value (T f).1 (T f).2 q' q'.pos] = [M]
      rw [hn8, hn2, hval]
  refine ⟨?_, hok⟩
  constructor
  · intro h
    by_contra h3
    obtain ⟨p, x, w, a, hp, -⟩ := hok (not_lt.1 h3)
    rw [h] at hp
    simp at hp
  · intro h
    show guessed (packaged nan T N) c = _
    unfold guessed
    simp only [hf]
    rw [← hd]
    have e1 : (packaged nan T N).guess ((packaged nan T N).func f) (inSlice c c.r) d = .error .estimation := by
      show orNan nan (Peaks.estimate (T f).1 (T f).2 (inSlice c c.r) d) = _
      rw [h1.2 (Or.inr h)]
      rfl
    rw [e1]
    rfl

theorem rippled_ripples {fresh : ℝ → ℕ → ℕ} (isRipple : Owner ℝ → Bool) (h : ∀ q i, fresh q i ≠ i) :
    Ripples (realSampler (rippled fresh) isRipple) :=
  ⟨fun _ _ => rfl, fun q o => h q o.id, fun _ _ => rfl⟩

theorem reported_ripples {fresh : ℝ → ℕ → ℕ} {isRipple : Owner ℝ → Bool} {q : ℝ} {p : Part ℝ} (h : PackagePeak nan T p) :
    PackagePeak nan T (ripplesIf (realSampler (rippled fresh) isRipple) q p) := by
  unfold ripplesIf withRipples
  split
  · split
    · exact h
    · obtain ⟨f, hf⟩ := h.format
      exact ⟨h.npars, h.names, ⟨f, hf⟩, h.pars, h.floats⟩
  · exact h

theorem New.package {fs : List ℕ} {p : Part ℝ} (h : New (packaged nan T N).func fs p) : PackagePeak nan T p := by
  obtain ⟨⟨f, hf, ho⟩, -, -, -, hs⟩ := h
  have ho' : p.owner = function nan f (T f) := ho
  have := hs (fun v i o q => by rw [ho']; exact function_sized nan f (T f) v i o q)
  exact ⟨by rw [ho']; rfl, by rw [ho']; rfl, ⟨f, by rw [ho']⟩, by rw [this.1, ho']; rfl, this.2⟩

/-- **C99.** Every peak that `PDFPeakExtraction.extract` leaves, with termination ripples or without, is reported with a width between zero and
the greatest width of its function, and an area that is not negative. -/
theorem c99_pdf_extract (hT : ∀ f, 0 < (T f).2) (hA : SortsKeys N.as) (hP : PicksOne N.pick) {fresh : ℝ → ℕ → ℕ}
    (hfr : ∀ q i, fresh q i ≠ i) {isRipple : Owner ℝ → Bool} {D : Defaults ℝ} {n : ℕ} {o o' : PObj ℝ}
    (hN : o.heap.peaks D.noPeaks = []) (hm : ∀ i, ∀ p ∈ o.heap.peaks i, PackagePeak nan T p) {x y : List ℝ}
    (hr : Ready o.vars.base x y) (hss : ∀ v, o.vars.supersample = some v → 0 < v)
    (h : PdfExtract.extract (codeWorld (packaged nan T N)) (realSampler (rippled fresh) isRipple) D n o = some (.ok (), o')) :
    ∃ c, o'.extracted = some c ∧ ∀ p ∈ c.model, ∃ f x w a, p.owner.transform = (function nan f (T f)).transform ∧ Reported (T f).2 p x w a := by
  have hS := packaged_sorting (N := N) nan T hA hP
  obtain ⟨-, P, eff, c, -, -, hc, hout⟩ := (PdfExtract.c81_extract (c95_sane _ hS) (c95_estimates _).1
    (realSampler_uniform (rippled fresh) isRipple) (rippled_ripples isRipple hfr) n o o' _ hN x y hr hss h).2 rfl
  refine ⟨c, hc, ?_⟩
  intro p hp
  rcases hout.peaks with ⟨m, hm', hs⟩ | ⟨q, hq, hk⟩
  · have : key p ∈ ((o.heap.peaks P.ip ++ m).map (ripplesIf (realSampler (rippled fresh) isRipple) P.q)).map key :=
      hs.subset (List.mem_map.2 ⟨p, hp, rfl⟩)
    obtain ⟨r, hr', e⟩ := List.mem_map.1 this
    obtain ⟨q, hq, rfl⟩ := List.mem_map.1 hr'
    refine reported_same hT ((samePeak_iff _ _).2 e.symm) (reported_ripples ?_)
    rcases List.mem_append.1 hq with hq | hq
    · exact hm _ q hq
    · exact New.package (N := N) (fs := o.heap.funcs P.pf) (hm' q hq)
  · have : key p ∈ [key q] := hk ▸ List.mem_map.2 ⟨p, hp, rfl⟩
    exact reported_same hT ((samePeak_iff _ _).2 (List.mem_singleton.1 this)) (New.package (N := N) (fs := o.heap.funcs P.pf) hq)

/-- **C99.** The same of `PDFPeakExtraction.fit`. -/
theorem c99_pdf_fit (hT : ∀ f, 0 < (T f).2) (hA : SortsKeys N.as) (hP : PicksOne N.pick) {fresh : ℝ → ℕ → ℕ}
    {isRipple : Owner ℝ → Bool} {D : Defaults ℝ} {o o' : PObj ℝ} (hm : ∀ i, ∀ p ∈ o.heap.peaks i, PackagePeak nan T p)
    {x y : List ℝ} (hr : Ready o.vars.base x y)
    (h : PdfExtract.fit (codeWorld (packaged nan T N)) (realSampler (rippled fresh) isRipple) D o = (.ok (), o')) :
    ∃ c, o'.extracted = some c ∧ ∀ p ∈ c.model, ∃ f x w a, p.owner.transform = (function nan f (T f)).transform ∧ Reported (T f).2 p x w a := by
  have hS := packaged_sorting (N := N) nan T hA hP
  obtain ⟨-, P, eff, c, -, -, hc, hout⟩ := (PdfExtract.c82_fit (c95_sane _ hS) (realSampler_uniform (rippled fresh) isRipple) o o' _ x y hr h).2 rfl
  refine ⟨c, hc, ?_⟩
  intro p hp
  have : key p ∈ (o.heap.peaks P.ip).map key := hout.peaks.subset (List.mem_map.2 ⟨p, hp, rfl⟩)
  obtain ⟨q, hq, e⟩ := List.mem_map.1 this
  exact reported_same hT ((samePeak_iff _ _).2 e.symm) (hm _ q hq)

end Verif.Parts.Package
