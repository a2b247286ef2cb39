import Verif.Peaks.Shape

/-!
# C89: what position, width and area in a summary mean for a Gaussian
-/

namespace Verif.Peaks

open Verif.Py MeasureTheory

/-- **C89.** The format "pwa" of any parameters of a Gaussian (the numbers in the summary of a peak): the curve has its
maximum at the position, half of it at half the width to either side, and the area under it is the area, provided the width is
not 0. -/
theorem c89_gaussian {mw : ℝ} (hmw : 0 < mw) (p : P) :
    ∃ w A, transform mw p "internal" "pwa" = .ok (some ⟨p.pos, w, A⟩) ∧ 0 ≤ w ∧ w ≤ mw ∧ 0 ≤ A ∧
      (0 < w →
        (∀ r, value .gaussian mw p r ≤ value .gaussian mw p p.pos) ∧
        value .gaussian mw p (p.pos + w / 2) = value .gaussian mw p p.pos / 2 ∧
        value .gaussian mw p (p.pos - w / 2) = value .gaussian mw p p.pos / 2 ∧
        ∫ r, value .gaussian mw p r = A) := by
  obtain ⟨n, hn, hpos, _, _, hA, hnn, hw, hval⟩ := c31_normalise mw p
  obtain ⟨q, hq, hback⟩ := c31_internal_roundtrip hmw p "pwa" (.inl rfl)
  have e : transform mw p "internal" "pwa" = .ok (some ⟨p.pos, fwhmOf mw (fold p.wid), |p.area|⟩) := by
    simp [transform, transformWith, toInternal, fromInternal, fwhmOf, Except.map]
  rw [hq] at e
  have hq' : q = ⟨p.pos, fwhmOf mw (fold p.wid), |p.area|⟩ := Option.some.inj (Except.ok.inj e)
  obtain ⟨h0, h1, _⟩ := c32_fwhm_bounds hmw (fold p.wid)
  refine ⟨fwhmOf mw (fold p.wid), |p.area|, by rw [hq, hq'], h0, h1, abs_nonneg _, ?_⟩
  intro hpos'
  obtain ⟨q', t1, _, t3, _, t5, t6, t7⟩ := c30_gaussian_pwa hmw p.pos (fwhmOf mw (fold p.wid)) |p.area| hpos' h1 (abs_nonneg _)
  rw [hq', t1, hn] at hback
  have hqn : q' = n := Option.some.inj (Except.ok.inj hback)
  rw [hqn] at t3 t5 t6 t7
  simp only [hval] at t3 t5 t6 t7
  exact ⟨t3, t5, t6, t7⟩

/-- Instance of `c89_gaussian`. -/
example : ∃ w A, transform 2 ⟨3, 7, -5⟩ "internal" "pwa" = .ok (some ⟨3, w, A⟩) ∧ 0 ≤ w ∧ w ≤ 2 := by
  obtain ⟨w, A, h1, h2, h3, _⟩ := c89_gaussian (mw := 2) (by norm_num) ⟨3, 7, -5⟩
  exact ⟨w, A, h1, h2, h3⟩

end Verif.Peaks
