import Verif.Package.Props

/-!
# Instances of C99
-/

set_option linter.unusedSectionVars false

namespace Verif.Parts.Package

open Verif.Py Verif.PeakList Verif.Extraction Verif.Parts.Extract Verif.Parts.ModelCluster
open Verif.Parts.PdfExtract (PObj From ripplesIf withRipples Ripples realSampler realSampler_uniform)

/-- Function 1 is a Gaussian/r, the others are Gaussians; widths are limited to 2. -/
def exTable : Table := fun i => (if i = 1 then .overR else .gaussian, 2)

theorem exTable_pos (f : ℕ) : 0 < (exTable f).2 := by show (0 : ℝ) < 2; norm_num

/-- An optimiser that moves every free parameter to 1, and fails with functions that do not accept everything. -/
noncomputable def toOne (m : List (Part ℝ)) : Lsq ℝ :=
  letI := Classical.propDecidable
  ⟨[List.replicate (npars m false) 1], .done (List.replicate (npars m false) 1)
    (if ∀ p ∈ m, ∀ v, v.length = p.pars.length → ∃ q, p.owner.transform v (some "internal") (some "internal") = .ok q then 1 else 5) none []⟩

noncomputable def exNumerics : Numerics ℝ where
  as := mergeAs
  pick _ := 0
  trunc := id
  val _ _ := 0
  sc p _ _ := .ok p.pars
  kind _ := .aic
  func i := function 0 i (exTable i)
  guess _ _ _ := .error .estimation
  opt _ m := (toOne m, toOne m)

theorem ex_picks : PicksOne exNumerics.pick := by
  intro l hl
  exact List.length_pos_iff.2 hl

theorem ex_fits (nan : ℝ) : Fits (packaged nan exTable exNumerics) := by
  have key : ∀ m : List (Part ℝ), Extract.Shaped (toOne m) (npars m false) ∧ Accepted (toOne m) m := by
    intro m
    refine ⟨⟨?_, ?_⟩, ?_⟩
    · intro v hv
      have : v = List.replicate (npars m false) 1 := by simpa [toOne] using hv
      rw [this]; simp
    · intro x ier cv f h
      simp only [toOne, Outcome.done.injEq] at h
      rw [← h.1]; simp
    · intro x ier cv f h hi
      simp only [toOne, Outcome.done.injEq] at h
      by_contra hno
      rw [if_neg hno] at h
      rw [← h.2.1] at hi
      simp at hi
  refine c95_fits _ (fun c m _ => key m) (fun c m _ h => ?_)
  have h' : (toOne m).outcome = .raises .notImplemented := h
  simp [toOne] at h'

/-- The functions of the package do accept what it finds. -/
example (nan : ℝ) (p : Part ℝ) (h : p.owner = function nan 3 (exTable 3)) (hl : p.pars.length = 3) :
    ∃ x c f, (toOne [p]).outcome = .done x 1 c f := by
  unfold toOne
  refine ⟨_, _, _, congrArg (fun i : ℤ => Outcome.done _ i _ _) (if_pos ?_)⟩
  intro q hq v hv
  rw [List.mem_singleton.1 hq] at hv ⊢
  rw [hl] at hv
  obtain ⟨a, b, c, rfl⟩ := List.length_eq_three.1 hv
  obtain ⟨r, hr, -⟩ := Peaks.c31_normalise (exTable 3).2 ⟨a, b, c⟩
  refine ⟨[r.pos, r.wid, r.area], ?_⟩
  rw [h, function_transform]
  unfold Function.transformParameters
  simp only [resolved_out, resolved_in]
  rw [if_neg (not_not.2 in_formats.1), if_neg (not_not.2 in_formats.1)]
  unfold rawTransform
  simp only [hr]

/-- A Gaussian at 3, internal width 0, negative internal area. -/
noncomputable def exPeak : Part ℝ := ⟨function 0 5 (exTable 5), [3, 0, -4], [true, false, true], true, false, false⟩

theorem exPeak_package : PackagePeak 0 exTable exPeak := ⟨rfl, rfl, ⟨5, rfl⟩, rfl, rfl⟩

/-- It is reported at 3, with width √2 and area 4. -/
example : Reported 2 exPeak 3 (Real.sqrt 2) 4 := by
  obtain ⟨t1, t2⟩ := transform_pwa 0 5 (exTable 5) 3 0 (-4)
  have e : Peaks.fwhmOf (exTable 5).2 0 = Real.sqrt 2 := by
    show Real.sqrt (0.5 * (Real.sin 0 + 1) * 2 ^ 2) = _
    rw [Real.sin_zero]
    congr 1
    norm_num
  have e4 : |(-4 : ℝ)| = 4 := by norm_num
  rw [e, e4] at t1 t2
  refine ⟨t1, t2, get_position (p := exPeak) rfl rfl, ⟨Real.sqrt_nonneg _, ?_⟩, by norm_num⟩
  rw [Real.sqrt_le_left (by norm_num)]
  norm_num

example {x w a : ℝ} (h : Reported 2 exPeak x w a) := c99_curve (nan := 0) exTable_pos (f := 5) (p := exPeak) rfl h rfl [1, 2, 7]

/-- The variables: five points. -/
def exVars : PX ℝ :=
  { x := some [0, 1, 2, 3, 4], y := some [0, 3, 5, 2, 0], dx := some [0, 0, 0, 0, 0], dy := some [1, 1, 1, 1, 1], pf := some 1, initialPeaks := some 1, cres := some 1 }

/-- Object 1: the initial peaks, the functions 3 (Gaussian) and 1 (Gaussian/r). -/
noncomputable def exHeap : Heap ℝ where
  base _ := ⟨⟨0, 0, [], fun _ r => r.map (fun _ => 0), fun _ _ _ => [], fun p _ _ => .ok p⟩, [], [], false, true, false⟩
  peaks i := if i = 1 then [exPeak] else []
  funcs _ := [3, 1]

def exDefs : Defaults ℝ := ⟨fun _ _ _ => .ok 0, fun _ => 1, 0, 0, 0⟩

theorem exVars_ready : Ready exVars [0, 1, 2, 3, 4] [0, 3, 5, 2, 0] :=
  ⟨rfl, rfl, ⟨[1, 1, 1, 1, 1], rfl, rfl⟩, by intro e h; simp [exVars] at h, by
    simp only [List.pairwise_cons, List.mem_cons, List.not_mem_nil, or_false]
    norm_num, rfl⟩

theorem exHeap_peaks (i : ℕ) (p : Part ℝ) (hp : p ∈ exHeap.peaks i) : PackagePeak 0 exTable p := by
  simp only [exHeap] at hp
  split at hp
  · rw [List.mem_singleton.1 hp]; exact exPeak_package
  · cases hp

theorem exVars_usable : Usable exDefs exHeap exVars [0, 1, 2, 3, 4] [0, 3, 5, 2, 0] where
  ready := exVars_ready
  inside := ⟨0, by simp, by intro l h; simp [exVars] at h, by intro l h; simp [exVars] at h⟩
  eff := by intro v h; simp [exVars] at h
  cres := by intro v h; simp only [exVars, Option.some.injEq] at h; rw [← h]; norm_num
  pf := by intro f _; simp [exHeap]
  wide := by intro h; simp [exVars] at h
  base := by intro f h; simp [exVars] at h
  ip := by
    intro p hp
    simp only [exVars, exHeap, Option.getD_some, if_true, List.mem_singleton] at hp
    rw [hp]; rfl

example {c : Cluster ℝ} (h : extractSingle (codeWorld (packaged 0 exTable exNumerics)) exHeap exDefs 3 1 exVars = .ok c) :=
  c99_extract exTable_pos mergeAs_sorts ex_picks rfl exHeap_peaks exVars_ready h

example := c99_search (nan := 0) (T := exTable) (N := exNumerics) mergeAs_sorts ex_picks (ex_fits 0) rfl exVars_usable

example {o' : Obj ℝ} (h : fitSingle (codeWorld (packaged 0 exTable exNumerics)) exDefs ⟨exVars, exHeap, none⟩ = (.ok (), o')) :=
  c99_fit_single exTable_pos mergeAs_sorts ex_picks (o := ⟨exVars, exHeap, none⟩) exHeap_peaks exVars_ready h

/-- A cluster over all the data. -/
noncomputable def exCl : Cluster ℝ :=
  ⟨[], none, [0, 1, 2, 3, 4], [0, 3, 5, 2, 0], [1, 1, 1, 1, 1], 0, 0, 0, 0, [3, 1], some ⟨none, 5⟩, 0, false⟩

/-- Three of the points are above zero: a peak is estimated, and it is as high as the highest of them. -/
example : ∃ p x w a, ((codeWorld (packaged 0 exTable exNumerics)).env exCl).estimate = .ok (some p) ∧
    Reported 2 p x w a ∧ p.owner.rawValue p.pars [x] = [5] := by
  have hd : ([0, 3, 5, 2, 0] : List ℝ) = List.zipWith (fun x y => y - curve (packaged 0 exTable exNumerics).val exCl.baseline.toList x)
      (inSlice exCl exCl.r) (inSlice exCl exCl.y) := by
    simp [exCl, inSlice, Slice.get, getSlice, bounds, curve]
  have hr : inSlice exCl exCl.r = [0, 1, 2, 3, 4] := by simp [exCl, inSlice, Slice.get, getSlice, bounds]
  obtain ⟨p, x, w, a, h1, h2, -, -, h5, -, -, h8⟩ := (c99_estimate (nan := 0) (T := exTable) (N := exNumerics) exTable_pos
    (c := exCl) (f := 3) (fs := [1]) rfl (by rw [hr]; exact exVars_ready.inc) (by simp [exCl, inSlice, Slice.get, getSlice, bounds]) hd).2
    (by norm_num [List.filter_cons])
  obtain ⟨M, hM, hle, hv⟩ := h8 (by intro h; simp [exTable] at h)
  refine ⟨p, x, w, a, h1, h5, ?_⟩
  rw [hv]
  have h5' := hle 5 (by simp)
  simp only [List.mem_cons, List.not_mem_nil, or_false] at hM
  rcases hM with rfl | rfl | rfl | rfl | rfl <;> first | rfl | (exfalso; revert h5'; norm_num)

noncomputable def exPObj : PObj ℝ := ⟨{ base := exVars, qmax := some 20, nyquist := some true, supersample := some 4 }, exHeap, none, none⟩

example {o' : PObj ℝ} (h : PdfExtract.extract (codeWorld (packaged 0 exTable exNumerics)) (realSampler (rippled (fun _ i => i + 1)) (fun _ => false)) exDefs 5
    exPObj = some (.ok (), o')) :=
  c99_pdf_extract exTable_pos mergeAs_sorts ex_picks (fresh := fun _ i => i + 1) (by intro q i; simp) (o := exPObj) rfl exHeap_peaks exVars_ready
    (by intro v hv; simp only [exPObj, Option.some.injEq] at hv; rw [← hv]; norm_num) h

example {o' : PObj ℝ} (h : PdfExtract.fit (codeWorld (packaged 0 exTable exNumerics)) (realSampler (rippled (fun _ i => i + 1)) (fun _ => false)) exDefs
    exPObj = (.ok (), o')) :=
  c99_pdf_fit (fresh := fun _ i => i + 1) exTable_pos mergeAs_sorts ex_picks (o := exPObj) exHeap_peaks exVars_ready h

end Verif.Parts.Package
