import Verif.Build.Model
import Verif.Print.Main

/-!
# Property C118: a peak built from numbers; a printed result typed in again

## Specification: what is read of a peak is `Reported` (C99), what is printed of it `Line` (C117), its curve `bell` (C99).
-/

set_option linter.unusedSectionVars false

namespace Verif.Parts.Build

open Verif.Py Verif.PeakList Verif.Extraction Verif.Parts.ModelCluster Verif.Parts.Extract Verif.Parts.Package Verif.Parts.Convert Verif.Parts.Print

/-! ### Any function -/

/-- **C118.** `actualize` gives a part exactly if the function converts the parameters to as many internal ones as it has, and there are as many flags
(if any are given); the part has the converted parameters, the flags (all free if none are given) and what else was said.  Otherwise it raises
what the conversion raises, or ValueError. -/
theorem c118_actualize {K : Type} (o : Owner K) (pars : List K) (i : Option String) (free : Option (List Bool)) (removable static : Bool) :
    (∀ p, actualize o pars i free removable static = .ok p ↔ o.transform pars i (some "internal") = .ok p.pars ∧ p.pars.length = o.npars ∧
      p.free.length = o.npars ∧ (∀ f, free = some f → p.free = f) ∧ (free = none → p.free = List.replicate o.npars true) ∧
      p.owner = o ∧ p.removable = removable ∧ p.staticOwner = static ∧ p.isInt = false) ∧
    (∀ e, actualize o pars i free removable static = .error e ↔ o.transform pars i (some "internal") = .error e ∨
      (e = .value ∧ ∃ v, o.transform pars i (some "internal") = .ok v ∧ (v.length ≠ o.npars ∨ ∃ f, free = some f ∧ f.length ≠ o.npars))) := by
  unfold actualize Part.new
  cases h : o.transform pars i (some "internal") with
  | error e => simp
  | ok v =>
    simp only [Except.ok.injEq, reduceCtorEq, false_or]
    by_cases hv : v.length = o.npars
    · rw [if_neg (not_not.2 hv)]
      cases free with
      | none =>
        simp only [List.length_map]
        rw [if_neg (not_not.2 hv)]
        constructor
        · rintro ⟨p1, p2, p3, p4, p5, p6⟩
          simp only [Except.ok.injEq, Part.mk.injEq, reduceCtorEq, false_implies, implies_true, true_and, forall_true_left, List.map_const']
          rw [hv]
          constructor
          · rintro ⟨rfl, rfl, rfl, rfl, rfl, rfl⟩; simp [hv]
          · rintro ⟨rfl, -, -, rfl, rfl, rfl, rfl, rfl⟩; simp
        · intro e; simp [hv]
      | some f =>
        by_cases hf : f.length = o.npars
        · simp only [hf, ne_eq, not_true_eq_false, if_false]
          constructor
          · rintro ⟨p1, p2, p3, p4, p5, p6⟩
            simp only [Except.ok.injEq, Part.mk.injEq, reduceCtorEq, false_implies, Option.some.injEq, forall_eq', true_and]
            constructor
            · rintro ⟨rfl, rfl, rfl, rfl, rfl, rfl⟩; simp [hv, hf]
            · rintro ⟨rfl, -, -, rfl, rfl, rfl, rfl, rfl⟩; simp
          · intro e; simp [hv, hf]
        · simp only [hf, ne_eq, not_false_eq_true, if_true]
          constructor
          · rintro ⟨p1, p2, p3, p4, p5, p6⟩
            simp only [reduceCtorEq, false_iff]
            rintro ⟨-, -, h3, h4, -⟩
            rw [h4 f rfl] at h3
            exact hf h3
          · intro e
            simp only [Except.error.injEq, Option.some.injEq, exists_eq_left', hf, not_false_eq_true, or_true, and_true]
            simp [eq_comm]
    · rw [if_pos hv]
      constructor
      · intro p
        simp only [reduceCtorEq, false_iff]
        rintro ⟨rfl, h2, -⟩
        exact hv h2
      · intro e
        simp [hv, eq_comm]

/-! ### The peak functions of the package -/

variable {nan : ℝ} {T : Table} {N : Numerics ℝ}

theorem from_pwa_abs {f : ℕ} {s : Peaks.Shape × ℝ} (hmw : 0 < s.2) (x : ℝ) {w : ℝ} (a : ℝ) (h : |w| ≤ s.2) :
    (function nan f s).transform [x, w, a] (some "pwa") (some "internal") = .ok [x, Real.arcsin (2 * |w| ^ 2 / s.2 ^ 2 - 1), a] := by
  rw [function_transform]
  unfold Function.transformParameters
  simp only [resolved_out, resolved_in_pwa]
  rw [if_neg (not_not.2 in_formats.2), if_neg (not_not.2 in_formats.1)]
  have harg := Peaks.arcsin_arg hmw (w := w) (by linarith [neg_abs_le w]) (le_trans (le_abs_self w) h)
  have hw : ¬ (s.2 < w) := not_lt.2 (le_trans (le_abs_self w) h)
  unfold rawTransform
  simp [Peaks.transform, Peaks.transformWith, Peaks.toInternal, Peaks.fromInternal, Except.map, hw, Peaks.arcsin?, harg, sq_abs]

/-- **C118.** A peak of the package built from position `x`, full width at half maximum `w` and area `a` in the format "pwa": it is read back with these
numbers (the absolute values of width and area), can be given to a search or a fit as an initial peak, and its curve is the bell of these numbers.  A width
above the limit of the function is refused with SrMiseTransformationError. -/
theorem c118_pwa (hT : ∀ f, 0 < (T f).2) (f : ℕ) (x w a : ℝ) {free : Option (List Bool)} (hf : ∀ l, free = some l → l.length = 3) (removable static : Bool) :
    ((T f).2 < w → actualize (function nan f (T f)) [x, w, a] (some "pwa") free removable static = .error .transformation) ∧
    (|w| ≤ (T f).2 → ∃ p, actualize (function nan f (T f)) [x, w, a] (some "pwa") free removable static = .ok p ∧ Reported (T f).2 p x |w| |a| ∧
      Line p [x, |w|, |a|] ∧ PackagePeak nan T p ∧ p.owner = function nan f (T f) ∧ p.free = free.getD [true, true, true] ∧ p.removable = removable ∧
      ∀ r, p.owner.rawValue p.pars r = r.map (bell (T f).1 x |w| |a|)) := by
  constructor
  · intro hw
    have e : (function nan f (T f)).transform [x, w, a] (some "pwa") (some "internal") = .error .transformation := by
      rw [function_transform]
      unfold Function.transformParameters
      simp only [resolved_out, resolved_in_pwa]
      rw [if_neg (not_not.2 in_formats.2), if_neg (not_not.2 in_formats.1)]
      unfold rawTransform
      have h0 : 0 ≤ w := le_trans (hT f).le hw.le
      simp only [((Peaks.c32_too_wide (hT f) ⟨x, w, a⟩ h0).1).2 hw]
    unfold actualize
    rw [e]
  · intro hw
    have e := from_pwa_abs (nan := nan) (f := f) (s := T f) (hT f) x a hw
    obtain ⟨t1, t2⟩ := transform_pwa nan f (T f) x (Real.arcsin (2 * |w| ^ 2 / (T f).2 ^ 2 - 1)) a
    rw [Peaks.fwhmOf_arcsin (hT f) (abs_nonneg w) hw] at t1 t2
    have hr : Reported (T f).2 (⟨function nan f (T f), [x, Real.arcsin (2 * |w| ^ 2 / (T f).2 ^ 2 - 1), a], free.getD [true, true, true], removable, static, false⟩ : Part ℝ)
        x |w| |a| := ⟨t1, t2, get_position rfl rfl, ⟨abs_nonneg w, hw⟩, abs_nonneg a⟩
    refine ⟨⟨function nan f (T f), [x, Real.arcsin (2 * |w| ^ 2 / (T f).2 ^ 2 - 1), a], free.getD [true, true, true], removable, static, false⟩, ?_, hr,
      c117_line (nan := nan) (f := f) rfl hr, ⟨rfl, rfl, ⟨f, rfl⟩, rfl, rfl⟩, rfl, rfl, rfl, fun r => (c99_curve hT (f := f) rfl hr rfl r).1⟩
    refine ((c118_actualize _ _ _ _ _ _).1 _).2 ⟨e, rfl, ?_, ?_, ?_, rfl, rfl, rfl, rfl⟩
    · cases free with
      | none => rfl
      | some l => exact hf l rfl
    · rintro l rfl; rfl
    · rintro rfl; rfl

/-- **C118.** Finding.  A width below the negative of the limit is not refused: the width parameter of the peak is NaN. -/
theorem c118_negative (hT : ∀ f, 0 < (T f).2) (f : ℕ) (x a : ℝ) {w : ℝ} (h : w < -(T f).2) :
    peakFrom (function nan f (T f)) [x, w, a] (some "pwa") = .ok ⟨function nan f (T f), [x, nan, a], [true, true, true], true, false, false⟩ := by
  have e : (function nan f (T f)).transform [x, w, a] (some "pwa") (some "internal") = .ok [x, nan, a] := by
    rw [function_transform]
    unfold Function.transformParameters
    simp only [resolved_out, resolved_in_pwa]
    rw [if_neg (not_not.2 in_formats.2), if_neg (not_not.2 in_formats.1)]
    unfold rawTransform
    simp only [Peaks.c31_very_negative_width_nan (hT f) ⟨x, w, a⟩ h]
  exact ((c118_actualize _ _ _ _ _ _).1 _).2 ⟨e, rfl, rfl, (fun l hl => by cases hl), (fun _ => rfl), rfl, rfl, rfl, rfl⟩

theorem from_internal {f : ℕ} {s : Peaks.Shape × ℝ} (x b a : ℝ) :
    (function nan f s).transform [x, b, a] (some "internal") (some "internal") = .ok [x, Peaks.fold b, |a|] := by
  rw [function_transform]
  unfold Function.transformParameters
  simp only [resolved_out, resolved_in]
  rw [if_neg (not_not.2 in_formats.1), if_neg (not_not.2 in_formats.1)]
  unfold rawTransform
  simp [Peaks.transform, Peaks.transformWith, Peaks.toInternal, Peaks.fromInternal, Except.map]

theorem fwhm_fold (mw b : ℝ) : Peaks.fwhmOf mw (Peaks.fold b) = Peaks.fwhmOf mw b := by
  obtain ⟨q, hq, -, -, -, -, -, hw, -⟩ := Peaks.c31_normalise mw ⟨0, b, 0⟩
  simp only [Peaks.transform, Peaks.transformWith, Peaks.toInternal, Peaks.fromInternal, Except.map, ne_eq, not_true_eq_false, and_false, if_false, if_true,
    id_eq, Except.ok.injEq, Option.some.injEq] at hq
  rw [← hq] at hw
  exact hw

/-- **C118.** Built from internal parameters: any three numbers make a peak; the middle one stands for a width within the limit. -/
theorem c118_internal (hT : ∀ f, 0 < (T f).2) (f : ℕ) (x b a : ℝ) : ∃ p, peakFrom (function nan f (T f)) [x, b, a] (some "internal") = .ok p ∧
    Reported (T f).2 p x (Peaks.fwhmOf (T f).2 b) |a| ∧ PackagePeak nan T p ∧
    ∀ r, p.owner.rawValue p.pars r = r.map (bell (T f).1 x (Peaks.fwhmOf (T f).2 b) |a|) := by
  obtain ⟨t1, t2⟩ := transform_pwa nan f (T f) x (Peaks.fold b) |a|
  rw [fwhm_fold, abs_abs] at t1 t2
  obtain ⟨h0, h1, -⟩ := Peaks.c32_fwhm_bounds (hT f) b
  have hr : Reported (T f).2 (⟨function nan f (T f), [x, Peaks.fold b, |a|], [true, true, true], true, false, false⟩ : Part ℝ)
      x (Peaks.fwhmOf (T f).2 b) |a| := ⟨t1, t2, get_position rfl rfl, ⟨h0, h1⟩, abs_nonneg a⟩
  exact ⟨_, ((c118_actualize _ _ _ _ _ _).1 _).2 ⟨from_internal x b a, rfl, rfl, (fun l hl => by cases hl), (fun _ => rfl), rfl, rfl, rfl, rfl⟩, hr,
    ⟨rfl, rfl, ⟨f, rfl⟩, rfl, rfl⟩, fun r => (c99_curve hT (f := f) rfl hr rfl r).1⟩

/-- **C118.** Finding.  Without a format the numbers are internal parameters (although what is printed is in the format "pwa"): the width of the peak is the one
that internal parameter `w` stands for; no error. -/
theorem c118_no_format (hT : ∀ f, 0 < (T f).2) (f : ℕ) (x w a : ℝ) : ∃ p, peak (function nan f (T f)) [x, w, a] = .ok p ∧
    Reported (T f).2 p x (Peaks.fwhmOf (T f).2 w) |a| := by
  obtain ⟨p, h1, h2, -⟩ := c118_internal (nan := nan) hT f x w a
  exact ⟨p, h1, h2⟩

/-- **C118.** Built from mean, standard deviation and area: position and area as given, the width is the full width at half maximum of the normal density. -/
theorem c118_mu_sigma_area (hT : ∀ f, 0 < (T f).2) (f : ℕ) (x : ℝ) {σ : ℝ} (a : ℝ) (h0 : 0 ≤ σ) (h : σ * (2 * Real.sqrt (2 * Real.log 2)) ≤ (T f).2) :
    ∃ p, peakFrom (function nan f (T f)) [x, σ, a] (some "mu_sigma_area") = .ok p ∧ Reported (T f).2 p x (σ * (2 * Real.sqrt (2 * Real.log 2))) |a| ∧
      PackagePeak nan T p ∧ ∀ r, p.owner.rawValue p.pars r = r.map (bell (T f).1 x (σ * (2 * Real.sqrt (2 * Real.log 2))) |a|) := by
  have hs : Peaks.sigma2fwhm = 2 * Real.sqrt (2 * Real.log 2) := rfl
  rw [← hs] at h ⊢
  have hw0 : 0 ≤ σ * Peaks.sigma2fwhm := mul_nonneg h0 Peaks.sigma2fwhm_pos.le
  have e : (function nan f (T f)).transform [x, σ, a] (some "mu_sigma_area") (some "internal") =
      .ok [x, Real.arcsin (2 * (σ * Peaks.sigma2fwhm) ^ 2 / (T f).2 ^ 2 - 1), a] := by
    rw [function_transform]
    unfold Function.transformParameters
    have h1 : Function.resolveIn formats (some "mu_sigma_area") = "mu_sigma_area" := by decide
    have h2 : "mu_sigma_area" ∈ formats.parformats := by decide
    simp only [resolved_out, h1]
    rw [if_neg (not_not.2 h2), if_neg (not_not.2 in_formats.1)]
    unfold rawTransform
    simp only [Peaks.transform_msa (hT f) ⟨x, σ, a⟩ h0 h]
  obtain ⟨t1, t2⟩ := transform_pwa nan f (T f) x (Real.arcsin (2 * (σ * Peaks.sigma2fwhm) ^ 2 / (T f).2 ^ 2 - 1)) a
  rw [Peaks.fwhmOf_arcsin (hT f) hw0 h] at t1 t2
  have hr : Reported (T f).2 (⟨function nan f (T f), [x, Real.arcsin (2 * (σ * Peaks.sigma2fwhm) ^ 2 / (T f).2 ^ 2 - 1), a], [true, true, true], true, false, false⟩ : Part ℝ)
      x (σ * Peaks.sigma2fwhm) |a| := ⟨t1, t2, get_position rfl rfl, ⟨hw0, h⟩, abs_nonneg a⟩
  exact ⟨_, ((c118_actualize _ _ _ _ _ _).1 _).2 ⟨e, rfl, rfl, (fun l hl => by cases hl), (fun _ => rfl), rfl, rfl, rfl, rfl⟩, hr,
    ⟨rfl, rfl, ⟨f, rfl⟩, rfl, rfl⟩, fun r => (c99_curve hT (f := f) rfl hr rfl r).1⟩

/-! ### Typing in what was printed -/

/-- The same peak for the user: the same function, and the same curve. -/
structure SameCurve (p q : Part ℝ) : Prop where
  owner : q.owner = p.owner
  curve : ∀ r, q.owner.rawValue q.pars r = p.owner.rawValue p.pars r

/-- **C118.** The lines printed of any peaks of the package (C117), given to their functions in the format "pwa", make peaks of which the same is printed
and which have the same curves; they are free and removable, whatever the printed ones were. -/
theorem c118_retyped (hT : ∀ f, 0 < (T f).2) {ps : List (Part ℝ)} (hp : ∀ p ∈ ps, Ours nan T p) :
    ∃ vs qs, modelStr ps = .ok vs ∧ peaksFrom (some "pwa") (List.zip (ps.map (fun p => p.owner)) vs) = .ok qs ∧ modelStr qs = .ok vs ∧
      List.Forall₂ SameCurve ps qs ∧ ∀ q ∈ qs, q.free = [true, true, true] ∧ q.removable = true := by
  induction ps with
  | nil => exact ⟨[], [], rfl, rfl, rfl, .nil, by simp⟩
  | cons p ps ih =>
    obtain ⟨vs, qs, h1, h2, h3, h4, h5⟩ := ih (fun q hq => hp q (List.mem_cons_of_mem _ hq))
    obtain ⟨⟨f, ho⟩, hl⟩ := hp p (List.mem_cons_self)
    obtain ⟨x, w, a, hr⟩ := reported_of (nan := nan) (hT f) (p := p) (by rw [ho]) (by rw [ho]; rfl) hl
    have hline : partStr p = .ok [x, w, a] := c117_line (nan := nan) (f := f) (by rw [ho]) hr
    have hw : |w| = w := abs_of_nonneg hr.width.1
    have ha : |a| = a := abs_of_nonneg hr.area
    obtain ⟨q, k1, k2, k3, k4, k5, k6, k7, k8⟩ := (c118_pwa (nan := nan) hT f x w a (free := none) (by intro l hl; cases hl) true false).2
      (by rw [hw]; exact hr.width.2)
    rw [hw, ha] at k2 k3 k8
    refine ⟨[x, w, a] :: vs, q :: qs, ?_, ?_, ?_, .cons ⟨by rw [k5, ho], fun r => ?_⟩ h4, ?_⟩
    · unfold modelStr
      rw [hline, h1]
      rfl
    · rw [List.map_cons, List.zip_cons_cons, ho]
      unfold peaksFrom peakFrom
      rw [k1]
      simp only [h2]
    · have : partStr q = .ok [x, w, a] := k3
      unfold modelStr
      rw [this, h3]
      rfl
    · rw [k8, (c99_curve hT ho hr hl r).1]
    · intro q' hq'
      rcases List.mem_cons.1 hq' with rfl | hq'
      · exact ⟨k6, k7⟩
      · exact h5 q' hq'

/-- **C118.** In particular what is printed of a result of a search, given initial peaks of the package: the peaks typed in have the curves of the result. -/
theorem c118_result (hT : ∀ f, 0 < (T f).2) (hA : SortsKeys N.as) (hP : PicksOne N.pick) {H : Heap ℝ} {D : Defaults ℝ}
    (hN : H.peaks D.noPeaks = []) (hm : ∀ i, ∀ p ∈ H.peaks i, PackagePeak nan T p) (ho : ∀ i, ∀ p ∈ H.peaks i, ∃ f, p.owner = function nan f (T f))
    {n depth : ℕ} {s : PX ℝ} {c : Cluster ℝ} {x y : List ℝ} (hr : Ready s x y) (h : extractSingle (codeWorld (packaged nan T N)) H D n depth s = .ok c) :
    ∃ vs qs, modelStr c.model = .ok vs ∧ peaksFrom (some "pwa") (List.zip (c.model.map (fun p => p.owner)) vs) = .ok qs ∧ modelStr qs = .ok vs ∧
      List.Forall₂ SameCurve c.model qs ∧ ∀ q ∈ qs, q.free = [true, true, true] ∧ q.removable = true := by
  have hS := packaged_sorting (N := N) nan T hA hP
  obtain ⟨t, pf, ip, -, -, -, rfl, hpr, -⟩ := c69_provenance (c95_sane _ hS) (c95_estimates _).1 hN hr h
  apply c118_retyped hT
  intro p hp
  rcases hpr p hp with ⟨⟨f, hf, ho⟩, -, -, -, hs⟩ | ⟨q, hq, hs⟩
  · have ho' : p.owner = function nan f (T f) := ho
    refine ⟨⟨f, ho'⟩, ?_⟩
    have := (hs (fun v i o q => by rw [ho']; exact function_sized nan f (T f) v i o q)).1
    rw [this, ho']
    rfl
  · obtain ⟨f, hf⟩ := ho _ q hq
    have hq' := hm _ q hq
    obtain ⟨h1, -, -, -, h5, -⟩ := hs
    have hf' : p.owner = function nan f (T f) := by rw [h1, hf]
    have hp' := (h5.2 (fun _ => ⟨by rw [hq'.pars, hq'.npars], hq'.floats⟩) (fun v i o q => by rw [hf']; exact function_sized nan f (T f) v i o q)).1
    exact ⟨⟨f, hf'⟩, by rw [hp', h1, hq'.npars]⟩

/-! ### Instances -/

/-- The peak at 3 of width 1 and area 4, of function 5, whose widths are limited to 2; of width -1; of width 3. -/
example : ∃ p, peakFrom (function 0 5 (exTable 5)) [3, 1, 4] (some "pwa") = .ok p ∧ Line p [3, 1, 4] := by
  obtain ⟨p, h1, -, h2, -⟩ := (c118_pwa (nan := 0) exTable_pos 5 3 1 4 (free := none) (by intro l h; cases h) true false).2 (by
    show |(1 : ℝ)| ≤ 2
    norm_num)
  norm_num at h2
  exact ⟨p, h1, h2⟩

example : ∃ p, actualize (function 0 5 (exTable 5)) [3, -1, -4] (some "pwa") (some [true, false, true]) true false = .ok p ∧ Line p [3, 1, 4] ∧ p.free = [true, false, true] := by
  obtain ⟨p, h1, -, h2, -, -, h3, -⟩ := (c118_pwa (nan := 0) exTable_pos 5 3 (-1) (-4) (free := some [true, false, true]) (by rintro l ⟨⟩; rfl) true false).2 (by
    show |(-1 : ℝ)| ≤ 2
    norm_num)
  norm_num at h2
  exact ⟨p, h1, h2, h3⟩

example : actualize (function 0 5 (exTable 5)) [3, 3, 4] (some "pwa") none true false = .error .transformation :=
  (c118_pwa (nan := 0) exTable_pos 5 3 3 4 (free := none) (by intro l h; cases h) true false).1 (by show (2 : ℝ) < 3; norm_num)

example (nan : ℝ) : peakFrom (function nan 5 (exTable 5)) [3, -3, 4] (some "pwa") =
    .ok ⟨function nan 5 (exTable 5), [3, nan, 4], [true, true, true], true, false, false⟩ :=
  c118_negative exTable_pos 5 3 4 (by show (-3 : ℝ) < -2; norm_num)

/-- Two flags for three parameters. -/
example : actualize (function 0 5 (exTable 5)) [3, 1, 4] (some "pwa") (some [true, false]) true false = .error .value := by
  have e := from_pwa_abs (nan := 0) (f := 5) (s := exTable 5) (exTable_pos 5) 3 (w := 1) 4 (by show |(1 : ℝ)| ≤ 2; norm_num)
  exact ((c118_actualize _ _ _ _ _ _).2 _).2 (.inr ⟨rfl, _, e, .inr ⟨_, rfl, by show 2 ≠ 3; decide⟩⟩)

/-- Without a format: the width is not 2 but `2√((sin 2 + 1)/2)`. -/
example : ∃ p w, peak (function 0 5 (exTable 5)) [3, 2, 4] = .ok p ∧ Reported 2 p 3 w 4 ∧ w ^ 2 = 2 * (Real.sin 2 + 1) ∧ w ≠ 2 := by
  obtain ⟨p, h1, h2⟩ := c118_no_format (nan := 0) exTable_pos 5 3 2 4
  have e4 : |(4 : ℝ)| = 4 := by norm_num
  rw [e4] at h2
  have hsq : (Peaks.fwhmOf 2 2) ^ 2 = 2 * (Real.sin 2 + 1) := by
    rw [Peaks.fwhmOf_sq]; ring
  refine ⟨p, _, h1, h2, hsq, ?_⟩
  intro h
  have h' : Peaks.fwhmOf 2 2 = 2 := h
  rw [h'] at hsq
  have hs : Real.sin 2 = 1 := by linarith
  have hc := Real.sin_sq_add_cos_sq 2
  rw [hs] at hc
  have hn := Real.cos_two_neg
  nlinarith

/-- Standard deviation 1/2 of a Gaussian/r. -/
example : ∃ p, peakFrom (function 0 1 (exTable 1)) [3, 1 / 2, -4] (some "mu_sigma_area") = .ok p ∧ Line p [3, Real.sqrt (2 * Real.log 2), 4] := by
  have e : (1 / 2 : ℝ) * (2 * Real.sqrt (2 * Real.log 2)) = Real.sqrt (2 * Real.log 2) := by ring
  obtain ⟨p, h1, h2, -⟩ := c118_mu_sigma_area (nan := 0) exTable_pos 1 3 (σ := 1 / 2) (-4) (by norm_num) (by
    rw [e]
    show _ ≤ (2 : ℝ)
    rw [Real.sqrt_le_left (by norm_num)]
    have := Real.log_two_lt_d9
    linarith)
  have e4 : |(-4 : ℝ)| = 4 := by norm_num
  rw [e, e4] at h2
  refine ⟨p, h1, c117_line (nan := 0) (f := 1) (T := exTable) ?_ h2⟩
  rw [(((c118_actualize _ _ _ _ _ _).1 p).1 h1).2.2.2.2.2.1]

example := c118_retyped (nan := 0) (T := exTable) exTable_pos ours

example {c : Cluster ℝ} (h : extractSingle (codeWorld (packaged 0 exTable exNumerics)) exHeap exDefs 3 1 exVars = .ok c) :=
  c118_result exTable_pos mergeAs_sorts ex_picks rfl exHeap_peaks (by
    intro i p hp
    simp only [exHeap] at hp
    split at hp
    · rw [List.mem_singleton.1 hp]; exact ⟨5, rfl⟩
    · cases hp) exVars_ready h

end Verif.Parts.Build
