import Verif.Refit.Props
import Verif.Repeat.Props

/-!
# Property C114: any number of fits
-/

set_option linter.unusedSectionVars false

namespace Verif.Parts.Refit

open Verif.Py Verif.PeakList Verif.Extraction Verif.Pdf Verif.Parts.ModelCluster Verif.Parts.Extract Verif.Parts.PdfExtract

section
variable {K : Type} [Field K] [LinearOrder K] [IsStrictOrderedRing K]
variable {W : World K} {S : Sampler K} {D : Defaults K}

/-- **C114.** The first fit, whatever it ends with, gives the variables their values; later fits change no variable. -/
theorem c114_settled (o : PObj K) (n : ℕ) : (fits W S D (n + 1) o).vars = (pdefaultvars S.pi D o.vars).2 := by
  induction n with
  | zero => exact fit_vars o
  | succ n ih =>
    show (PdfExtract.fit W S D (fits W S D (n + 1) o)).2.vars = _
    rw [fit_vars, ih, Repeat.pdefaultvars_again]

/-- What a fit may change beside the result: the list of initial peaks and the baseline object. -/
theorem fit_others (o : PObj K) :
    (PdfExtract.fit W S D o).2.heap.funcs = o.heap.funcs ∧
    (∀ j, (pdefaultvars S.pi D o.vars).2.base.initialPeaks ≠ some j → (PdfExtract.fit W S D o).2.heap.peaks j = o.heap.peaks j) ∧
    (∀ j, (pdefaultvars S.pi D o.vars).2.base.baseline ≠ some (.inst j) → (PdfExtract.fit W S D o).2.heap.base j = o.heap.base j) := by
  unfold PdfExtract.fit
  split
  · exact ⟨rfl, fun _ _ => rfl, fun _ _ => rfl⟩
  · rename_i s hs
    rw [hs]
    split
    · exact ⟨rfl, fun _ _ => rfl, fun _ _ => rfl⟩
    · rename_i t ht
      have key : ∀ v i, fitSingle W D ⟨t, o.heap, none⟩ = (v, i) → i.heap.funcs = o.heap.funcs ∧
          (∀ j, s.base.initialPeaks ≠ some j → i.heap.peaks j = o.heap.peaks j) ∧
          (∀ j, s.base.baseline ≠ some (.inst j) → i.heap.base j = o.heap.base j) := by
        intro v i hi
        unfold fitVars at ht
        obtain ⟨P, hP, ht⟩ := bind_ok ht
        obtain ⟨g, hg, ht⟩ := bind_ok ht
        have hin := innerVars_ok ht
        have hh := complete_ok hP
        obtain ⟨-, k1, k2, k3⟩ := c72_others_untouched (o := ⟨t, o.heap, none⟩) (hin.fix (D := D)) hi
        refine ⟨k1, fun j hj => k2 j ?_, fun j hj => k3 j ?_⟩
        · rw [hin.ip, ← hh.ip]; exact hj
        · rw [hin.bl, ← hh.bl]; exact hj
      split
      · rename_i e i hi; exact key _ _ hi
      · rename_i i hi; exact key _ _ hi

/-- **C114.** Over any number of fits, whatever they end with, no list of peak functions changes, of the lists of peaks only the one behind
`initial_peaks`, and of the baselines only the one behind `baseline`. -/
theorem c114_others (o : PObj K) (n : ℕ) :
    (fits W S D n o).heap.funcs = o.heap.funcs ∧
    (∀ j, (pdefaultvars S.pi D o.vars).2.base.initialPeaks ≠ some j → (fits W S D n o).heap.peaks j = o.heap.peaks j) ∧
    (∀ j, (pdefaultvars S.pi D o.vars).2.base.baseline ≠ some (.inst j) → (fits W S D n o).heap.base j = o.heap.base j) := by
  induction n with
  | zero => exact ⟨rfl, fun _ _ => rfl, fun _ _ => rfl⟩
  | succ n ih =>
    have hp : pdefaultvars S.pi D (fits W S D n o).vars = pdefaultvars S.pi D o.vars := by
      cases n with
      | zero => rfl
      | succ n => rw [c114_settled, Repeat.pdefaultvars_again]
    obtain ⟨h1, h2, h3⟩ := fit_others (W := W) (S := S) (D := D) (fits W S D n o)
    rw [hp] at h2 h3
    exact ⟨h1.trans ih.1, fun j hj => (h2 j hj).trans (ih.2.1 j hj), fun j hj => (h3 j hj).trans (ih.2.2 j hj)⟩

theorem fits_ok {o : PObj K} {n : ℕ} (h : (PdfExtract.fit W S D (fits W S D n o)).1 = .ok ()) :
    PdfExtract.fit W S D (fits W S D n o) = (.ok (), fits W S D (n + 1) o) := by
  rw [← h]; rfl

/-- The runs of a history of ok fits. -/
theorem history_runs {N : Numerics K} (hS : Sorting N) (hU : Uniform S) {o : PObj K} {x y : List K} (hr : Ready o.vars.base x y) {n : ℕ}
    (hok : ∀ k ≤ n, (PdfExtract.fit (codeWorld N) S D (fits (codeWorld N) S D k o)).1 = .ok ())
    (hh : ∀ k, 1 ≤ k → k ≤ n → Holds (fits (codeWorld N) S D k o)) :
    ∃ s P g, Data g.1 g.2.1 g.2.2 ∧ ∀ k ≤ n, ∃ c c',
      Run (codeWorld N) S D (fits (codeWorld N) S D k o) s P g c c' (fits (codeWorld N) S D (k + 1) o) ∧
      ∀ j ≤ k, ∃ d, (fits (codeWorld N) S D (j + 1) o).extracted = some d ∧ SameGrid d c' ∧
        cost N c' c'.model c'.baseline ≤ cost N d d.model d.baseline := by
  obtain ⟨s, P, g, c, c', hd, hrun⟩ := run_first hU hr (fits_ok (n := 0) (hok 0 (Nat.zero_le _)))
  refine ⟨s, P, g, hd, fun k => ?_⟩
  induction k with
  | zero =>
    intro _
    refine ⟨c, c', hrun, fun j hj => ?_⟩
    have : j = 0 := by omega
    subst this
    exact ⟨c', by rw [hrun.after], ⟨rfl, rfl, rfl, rfl, rfl⟩, le_refl _⟩
  | succ k ih =>
    intro hk
    obtain ⟨d, d', hrun', hall⟩ := ih (by omega)
    obtain ⟨e, e', hrun2, hsame, hle⟩ := run_again hS hd hrun' (hh (k + 1) (by omega) hk) (fits_ok (hok (k + 1) hk))
    refine ⟨e, e', hrun2, fun j hj => ?_⟩
    by_cases hjk : j ≤ k
    · obtain ⟨f, hf, hg, hl⟩ := hall j hjk
      exact ⟨f, hf, ⟨by rw [hsame.r, hg.r], by rw [hsame.y, hg.y], by rw [hsame.err, hg.err], by rw [hsame.slice, hg.slice],
        by rw [hsame.method, hg.method]⟩, hle.trans hl⟩
    · have : j = k + 1 := by omega
      subst this
      exact ⟨e', by rw [hrun2.after], ⟨rfl, rfl, rfl, rfl, rfl⟩, le_refl _⟩

/-- **C114.** In a history of fits that end normally, after each of which the objects hold its result, every result covers the same data, and none is
worse than any result before it. -/
theorem c114_history {N : Numerics K} (hS : Sorting N) (hU : Uniform S) {o : PObj K} {x y : List K} (hr : Ready o.vars.base x y) {n : ℕ}
    (hok : ∀ k ≤ n, (PdfExtract.fit (codeWorld N) S D (fits (codeWorld N) S D k o)).1 = .ok ())
    (hh : ∀ k, 1 ≤ k → k ≤ n → Holds (fits (codeWorld N) S D k o)) (j k : ℕ) (hjk : j ≤ k) (hk : k ≤ n) :
    ∃ c d, (fits (codeWorld N) S D (j + 1) o).extracted = some c ∧ (fits (codeWorld N) S D (k + 1) o).extracted = some d ∧
      SameGrid c d ∧ cost N d d.model d.baseline ≤ cost N c c.model c.baseline := by
  obtain ⟨s, P, g, hd, hall⟩ := history_runs hS hU hr hok hh
  obtain ⟨e, e', hrun, hj⟩ := hall k hk
  obtain ⟨c, h1, h2, h3⟩ := hj j hjk
  exact ⟨c, e', h1, by rw [hrun.after], h2, h3⟩

/-- **C114.** With a baseline without free parameters, the objects hold the result of every fit that ends normally and is taken: a history of such fits
makes the result better and better. -/
theorem c114_history_fixed {N : Numerics K} (hS : Sorting N) (hU : Uniform S) {o : PObj K} {x y : List K} (hr : Ready o.vars.base x y) {n : ℕ}
    (hz : ∀ bl, (pdefaultvars S.pi D o.vars).2.base.baseline = some (.inst bl) → (o.heap.base bl).npars false = 0)
    (hok : ∀ k ≤ n, (PdfExtract.fit (codeWorld N) S D (fits (codeWorld N) S D k o)).1 = .ok ())
    (ht : ∀ k < n, ¬ AsBefore (fits (codeWorld N) S D k o) (fits (codeWorld N) S D (k + 1) o)) (j k : ℕ) (hjk : j ≤ k) (hk : k ≤ n) :
    ∃ c d, (fits (codeWorld N) S D (j + 1) o).extracted = some c ∧ (fits (codeWorld N) S D (k + 1) o).extracted = some d ∧
      SameGrid c d ∧ cost N d d.model d.baseline ≤ cost N c c.model c.baseline := by
  obtain ⟨s, P, g, c, c', hd, hrun⟩ := run_first hU hr (fits_ok (n := 0) (hok 0 (Nat.zero_le _)))
  have main : ∀ m ≤ n, (∃ d d', Run (codeWorld N) S D (fits (codeWorld N) S D m o) s P g d d' (fits (codeWorld N) S D (m + 1) o)) ∧
      ((fits (codeWorld N) S D m o).heap.base P.bl).npars false = 0 ∧
      (m < n → Holds (fits (codeWorld N) S D (m + 1) o)) := by
    intro m
    induction m with
    | zero =>
      intro _
      have hbl : (o.heap.base P.bl).npars false = 0 := hz P.bl (by rw [hrun.vars]; exact hrun.has.bl)
      refine ⟨⟨c, c', hrun⟩, hbl, fun hlt => ?_⟩
      rcases run_after (c95_sane N hS) hrun with h | h
      · exact absurd h (ht 0 hlt)
      · refine c114_holds_fixed h fun b hb => ?_
        rw [hrun.after, hrun.has.bl] at hb
        simp only [Option.some.injEq, Base.inst.injEq] at hb
        rw [← hb]; exact hbl
    | succ m ih =>
      intro hm
      obtain ⟨⟨d, d', hr1⟩, hb1, -⟩ := ih (by omega)
      obtain ⟨e, e', hr2⟩ := run_next hd hr1 (fits_ok (hok (m + 1) hm))
      have hbl : ((fits (codeWorld N) S D (m + 1) o).heap.base P.bl).npars false = 0 := by
        rcases run_after (c95_sane N hS) hr1 with h | h
        · exact absurd h (ht m (by omega))
        · obtain ⟨_, ip, bl, -, -, e3, -, -, -, e7⟩ := h.holds
          rw [hr1.after, hr1.has.bl] at e3
          simp only [Option.some.injEq, Base.inst.injEq] at e3
          subst e3
          rw [(e7 hb1).2]; exact hb1
      refine ⟨⟨e, e', hr2⟩, hbl, fun hlt => ?_⟩
      rcases run_after (c95_sane N hS) hr2 with h | h
      · exact absurd h (ht (m + 1) hlt)
      · refine c114_holds_fixed h fun b hb => ?_
        rw [hr2.after, hr2.has.bl] at hb
        simp only [Option.some.injEq, Base.inst.injEq] at hb
        rw [← hb]; exact hbl
  refine c114_history hS hU hr hok (fun k h1 hk => ?_) j k hjk hk
  obtain ⟨i, rfl⟩ : ∃ i, k = i + 1 := ⟨k - 1, by omega⟩
  exact (main i (by omega)).2.2 (by omega)

end

/-! ## Instances and findings -/

/-- An optimiser that moves the second of two peaks to `a`, and leaves everything else alone. -/
def drift (a : ℚ) (m : List (Part ℚ)) : Lsq ℚ :=
  match m with
  | [p, q] => if q.owner.id = 0 then stay m else ⟨[], .done (stayAt p ++ [a, q.pars.getD 1 0]) 1 (some (eye (npars m false))) []⟩
  | [p, q, b] => ⟨[], .done (stayAt p ++ [a, q.pars.getD 1 0] ++ stayAt b) 1 (some (eye (npars m false))) []⟩
  | m => stay m

def drifts (a : ℚ) : Numerics ℚ := { spots .aic with opt := fun _ m => (drift a m, drift a m) }

theorem drifts_sorting (a : ℚ) : Sorting (drifts a) := ⟨mergeAs_sorts, pickBest_one, spots_scales .aic⟩

/-- Initial peaks of heights 5 and 3 at 2 and `a`; the baseline is at 0, with a free parameter or without. -/
def driftObj (free : Bool) (a : ℚ) : PObj ℚ :=
  ⟨{ pdfVars [0, 0, 5, 0, 3, 0, 0] with base.initialPeaks := some 1, qmax := some 0 },
    { dotHeap with peaks := fun i => if i = 1 then [spot 2 5, spot a 3] else [], base := fun i => if free then Repeat.level 0 else dotHeap.base i }, none, none⟩

theorem driftObj_ready (free : Bool) (a : ℚ) : Ready (driftObj free a).vars.base [0, 1, 2, 3, 4, 5, 6] [0, 0, 5, 0, 3, 0, 0] :=
  ⟨rfl, rfl, ⟨_, rfl, rfl⟩, by intro e h; simp [driftObj, pdfVars, dotVars] at h, by decide +kernel, rfl⟩

/-- After `n` fits: the extracted peaks, the list of initial peaks, the cost. -/
def afterFits (t : ℚ) (free : Bool) (a : ℚ) (n : ℕ) : Option (List (List ℚ)) × List (List ℚ) × Option ℚ :=
  let o := fits (codeWorld (drifts t)) linSampler dotDef n (driftObj free a)
  (o.extracted.map (fun c => c.model.map (fun p => p.pars)), (o.heap.peaks 1).map (fun p => p.pars), costOf (drifts t) o)

/-- **C114, finding.** The fit moves a peak out of the range, where it is removed; that makes the model worse, and the fit is not taken.  But the peak is gone
from the list of initial peaks: fitting again does not find it, and the result is worse than before. -/
theorem c114_refused : Sorting (drifts 9) ∧ Uniform linSampler ∧ Ready (driftObj false 4).vars.base [0, 1, 2, 3, 4, 5, 6] [0, 0, 5, 0, 3, 0, 0] ∧
    (∀ k ≤ 1, (PdfExtract.fit (codeWorld (drifts 9)) linSampler dotDef (fits (codeWorld (drifts 9)) linSampler dotDef k (driftObj false 4))).1.toOption = some ()) ∧
    afterFits 9 false 4 1 = (some [[2, 5], [4, 3]], [[2, 5]], some 8) ∧
    afterFits 9 false 4 2 = (some [[2, 5]], [[2, 5]], some 148) :=
  ⟨drifts_sorting 9, linSampler_uniform, driftObj_ready false 4, by decide +kernel, by decide +kernel, by decide +kernel⟩

/-- **C114, finding.** If the baseline takes part in the fit, a peak that is removed from the result stays in the list of initial peaks, with the parameters
of the fit.  (Without a free parameter of the baseline it is removed from the list, too.) -/
theorem c114_dropped : Ready (driftObj true 5).vars.base [0, 1, 2, 3, 4, 5, 6] [0, 0, 5, 0, 3, 0, 0] ∧
    afterFits 9 true 5 1 = (some [[2, 5]], [[2, 5], [9, 3]], some 148) ∧
    afterFits 9 false 5 1 = (some [[2, 5]], [[2, 5]], some 148) :=
  ⟨driftObj_ready true 5, by decide +kernel, by decide +kernel⟩

/-- A fit that moves a peak to where it belongs, and a second one that changes nothing. -/
theorem drift_ok : ∀ k ≤ 1, (PdfExtract.fit (codeWorld (drifts 4)) linSampler dotDef (fits (codeWorld (drifts 4)) linSampler dotDef k (driftObj false 3))).1 = .ok () := by
  have h : ∀ k ≤ 1, (PdfExtract.fit (codeWorld (drifts 4)) linSampler dotDef (fits (codeWorld (drifts 4)) linSampler dotDef k (driftObj false 3))).1.toOption = some () := by
    decide +kernel
  intro k hk
  have := h k hk
  generalize (PdfExtract.fit (codeWorld (drifts 4)) linSampler dotDef (fits (codeWorld (drifts 4)) linSampler dotDef k (driftObj false 3))).1 = r at this
  cases r with
  | error e => simp [Except.toOption] at this
  | ok u => rfl

theorem drift_not_before : ¬ AsBefore (driftObj false 3) (fits (codeWorld (drifts 4)) linSampler dotDef 1 (driftObj false 3)) := by
  rintro ⟨c, ip, bl, e1, e2, -, e4, -⟩
  have k1 : (fits (codeWorld (drifts 4)) linSampler dotDef 1 (driftObj false 3)).extracted.map (fun c => c.model.map (fun p => p.pars)) =
    some [[2, 5], [4, 3]] := by decide +kernel
  have k2 : (fits (codeWorld (drifts 4)) linSampler dotDef 1 (driftObj false 3)).vars.base.initialPeaks = some 1 := by decide +kernel
  have k3 : ((driftObj false 3).heap.peaks 1).map (fun p => p.pars) = [[2, 5], [3, 3]] := by decide +kernel
  rw [e1] at k1
  rw [e2, Option.some.injEq] at k2
  subst k2
  simp only [Option.map_some, Option.some.injEq, e4, k3] at k1
  revert k1
  decide +kernel

theorem drift_taken : Taken (driftObj false 3) (fits (codeWorld (drifts 4)) linSampler dotDef 1 (driftObj false 3)) :=
  (c114_after (c95_sane _ (drifts_sorting 4)) linSampler_uniform (driftObj_ready false 3)
    (fits_ok (o := driftObj false 3) (n := 0) (drift_ok 0 (by omega)))).resolve_left drift_not_before

theorem drift_holds : Holds (fits (codeWorld (drifts 4)) linSampler dotDef 1 (driftObj false 3)) :=
  c114_holds_fixed drift_taken (fun _ _ => rfl)

/-- Instances of `c114_again`, `c114_history` and `c114_history_fixed`. -/
example := c114_again (D := dotDef) (drifts_sorting 4) linSampler_uniform (driftObj_ready false 3)
  (fits_ok (o := driftObj false 3) (n := 0) (drift_ok 0 (by omega))) drift_holds (fits_ok (o := driftObj false 3) (n := 1) (drift_ok 1 (by omega)))

example := c114_history (D := dotDef) (drifts_sorting 4) linSampler_uniform (driftObj_ready false 3) drift_ok
  (fun k h1 h2 => by
    obtain rfl : k = 1 := by omega
    exact drift_holds) 0 1 (by omega) (by omega)

example := c114_history_fixed (D := dotDef) (drifts_sorting 4) linSampler_uniform (driftObj_ready false 3) (fun _ _ => rfl) drift_ok
  (fun k hk => by
    obtain rfl : k = 0 := by omega
    exact drift_not_before) 0 1 (by omega) (by omega)

example : afterFits 4 false 3 1 = (some [[2, 5], [4, 3]], [[2, 5], [4, 3]], some 8) ∧ afterFits 4 false 3 2 = (some [[2, 5], [4, 3]], [[2, 5], [4, 3]], some 8) :=
  ⟨by decide +kernel, by decide +kernel⟩

end Verif.Parts.Refit
