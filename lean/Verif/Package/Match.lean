import Verif.Package.Props
import Verif.Peaks.Scale
import Verif.PeakList.Props

/-!
# Property C99: matching a height with the peak functions of the package

## Specification

A peak that can be lowered at the point `x`: all its parameters are free, its width and area are not zero, and `x` is not the place of its
maximum.
-/

set_option linter.unusedSectionVars false

namespace Verif.Parts.Package

open Verif.Py Verif.PeakList Verif.Extraction Verif.Parts.Extract Verif.Parts.ModelCluster

variable {nan : ℝ} {T : Table} {N : Numerics ℝ}

/-- The place and height of the maximum of the curve, where there is one (`c35_gaussian_max`, `c35_overR_max`: it is the maximum). -/
noncomputable def top (T : Table) (p : Part ℝ) : Option (ℝ × ℝ) :=
  (Peaks.max (T p.owner.id).1 (T p.owner.id).2 (three p.pars)).toOption

structure Lowerable (nan : ℝ) (T : Table) (x : ℝ) (p : Part ℝ) : Prop where
  owner : ∃ f, p.owner = function nan f (T f)
  free : p.free = [true, true, true]
  pars : p.pars.length = 3
  wide : ∃ w a, 0 < w ∧ 0 < a ∧ ∃ z, Reported (T p.owner.id).2 p z w a
  right : (T p.owner.id).1 = .overR → ∃ z, p.get (.name "position") = .ok z ∧ 0 < z
  aside : ∃ m v, top T p = some (m, v) ∧ x ≠ m

/-! ## Theorems -/

theorem scaled_one {nan : ℝ} {T : Table} (hT : ∀ f, 0 < (T f).2) {x s : ℝ} {p : Part ℝ} (h : Lowerable nan T x p) (h0 : 0 < s) (h1 : s ≤ 1) :
    ∃ p', scaleAt (scaled nan T) p x s = (.ok true, p') ∧
      (p'.owner.rawValue p'.pars [x]).headD 0 = s * (p.owner.rawValue p.pars [x]).headD 0 ∧ p'.owner = p.owner ∧ top T p' = top T p := by
  obtain ⟨f, ho⟩ := h.owner
  have hid : p.owner.id = f := by rw [ho]; rfl
  obtain ⟨a, b, c, e⟩ := List.length_eq_three.1 h.pars
  obtain ⟨w, ar, hw, har, z, hr⟩ := h.wide
  rw [hid] at hr
  have hp := hr.pwa
  rw [ho, e, (transform_pwa nan f (T f) a b c).1] at hp
  simp only [Except.ok.injEq, List.cons.injEq, and_true] at hp
  obtain ⟨rfl, rfl, rfl⟩ := hp
  have hsin : Real.sin b ≠ -1 := by
    intro hs
    have : Peaks.fwhmOf (T f).2 b = 0 := by unfold Peaks.fwhmOf; rw [hs]; norm_num
    rw [this] at hw
    exact lt_irrefl _ hw
  have hc : c ≠ 0 := abs_pos.1 har
  obtain ⟨m, v, ht, hx⟩ := h.aside
  unfold top at ht
  rw [hid, e] at ht
  have h3 : three [a, b, c] = ⟨a, b, c⟩ := rfl
  rw [h3] at ht
  have key : ∃ q : Peaks.P, scaleOf (T f) ⟨a, b, c⟩ x s = .ok (some q) ∧
      Peaks.value (T f).1 (T f).2 q x = s * Peaks.value (T f).1 (T f).2 ⟨a, b, c⟩ x ∧
      Peaks.max (T f).1 (T f).2 q = Peaks.max (T f).1 (T f).2 ⟨a, b, c⟩ := by
    unfold scaleOf
    cases hs : (T f).1 with
    | gaussian =>
      rw [hs] at ht
      have hmax : ∀ q : Peaks.P, Peaks.max .gaussian (T f).2 q = .ok (q.pos, Peaks.value .gaussian (T f).2 q q.pos) := by
        intro q
        unfold Peaks.max
        simp only [Peaks.transform_to_msa']
      rw [hmax] at ht
      have hxa : x ≠ a := by
        simp only [Except.toOption, Option.some.injEq, Prod.mk.injEq] at ht
        rw [ht.1]; exact hx
      obtain ⟨q, hq⟩ := (Peaks.c36_gaussian_refusals (hT f) ⟨a, b, c⟩ x s hsin hc hxa).2 h0 h1
      obtain ⟨-, e1, e2, e3⟩ := Peaks.c36_gaussian_scale (hT f) ⟨a, b, c⟩ q x s hsin hc hxa hq
      refine ⟨q, hq, e2, ?_⟩
      rw [hmax, hmax, e1, e3]
    | overR =>
      rw [hs] at ht
      obtain ⟨z, hz, hz0⟩ := h.right (by rw [hid]; exact hs)
      rw [get_position (by rw [ho]; rfl) e] at hz
      simp only [Except.ok.injEq] at hz
      have ha0 : 0 < a := by rw [hz]; exact hz0
      have hm : Peaks.max .overR (T f).2 ⟨a, b, c⟩ = .ok (m, v) := by
        revert ht
        cases Peaks.max .overR (T f).2 ⟨a, b, c⟩ with
        | error _ => intro h; simp [Except.toOption] at h
        | ok r => intro h; simp only [Except.toOption, Option.some.injEq] at h; rw [h]
      obtain ⟨q, hq, hqm⟩ := (Peaks.c36_overR_shrink (hT f) ⟨a, b, c⟩ x s hsin hc ha0).2.2 m v hm h0 h1 hx
      refine ⟨q, hq, ?_, by rw [hqm, hm]⟩
      by_cases hs1 : s = 1
      · subst hs1
        unfold Peaks.scaleOverR at hq
        rw [if_neg (not_le.2 h0), if_pos rfl] at hq
        simp only [Except.ok.injEq, Option.some.injEq] at hq
        rw [← hq, one_mul]
      · obtain ⟨-, m', v', -, -, -, hval, -, -⟩ := Peaks.c36_overR_scale (hT f) ⟨a, b, c⟩ q x s hsin hc ha0 hs1 hq
        exact hval
  obtain ⟨q, hq, hval, hmax⟩ := key
  have hsc : scaled nan T p x s = .ok [q.pos, q.wid, q.area] := by
    unfold scaled
    rw [e]
    simp only [hid]
    rw [hq]
    rfl
  refine ⟨{ p with pars := [q.pos, q.wid, q.area] }, ?_, ?_, rfl, ?_⟩
  · unfold scaleAt
    rw [if_neg (by rw [h.free]; decide), hsc]
    simp only
    rw [if_neg (by rw [e, h.free]; simp [fixedChanged])]
  · rw [e]
    show (p.owner.rawValue [q.pos, q.wid, q.area] [x]).headD 0 = _
    rw [ho]
    exact hval
  · unfold top
    simp only
    rw [hid, e]
    show (Peaks.max (T f).1 (T f).2 q).toOption = (Peaks.max (T f).1 (T f).2 ⟨a, b, c⟩).toOption
    rw [hmax]

theorem scaleAt_flags {sc : Part ℝ → ℝ → ℝ → Res (List ℝ)} {p p' : Part ℝ} {x s : ℝ} {b : Res Bool} (h : scaleAt sc p x s = (b, p')) :
    p'.free = p.free ∧ p'.removable = p.removable := by
  unfold scaleAt at h
  split at h
  · simp only [Prod.mk.injEq] at h; rw [← h.2]; exact ⟨rfl, rfl⟩
  · split at h
    · simp only [Prod.mk.injEq] at h; rw [← h.2]; exact ⟨rfl, rfl⟩
    · simp only [Prod.mk.injEq] at h; rw [← h.2]; exact ⟨rfl, rfl⟩
    · split at h
      · simp only [Prod.mk.injEq] at h; rw [← h.2]; exact ⟨rfl, rfl⟩
      · simp only [Prod.mk.injEq] at h; rw [← h.2]; exact ⟨rfl, rfl⟩

/-- **C99.** `match_at(x, y)` on peaks of the package that can be lowered at `x`, where `y` is positive and at most their sum: it answers True,
the sum of the peaks at `x` is then `y`, and every peak keeps its function, its flags and the place and height of its maximum. -/
theorem c99_match (hT : ∀ f, 0 < (T f).2) {ps : List (Part ℝ)} {x y : ℝ} (hp : ∀ p ∈ ps, Lowerable nan T x p) (h0 : 0 < y)
    (h1 : y ≤ curve (packaged nan T N).val ps x) :
    ∃ ps', matchAt (packaged nan T N).sc (packaged nan T N).val ps x y = (true, ps') ∧ curve (packaged nan T N).val ps' x = y ∧
      List.Forall₂ (fun p p' => p'.owner = p.owner ∧ p'.free = p.free ∧ p'.removable = p.removable ∧ top T p' = top T p) ps ps' := by
  have hpos : 0 < curve (packaged nan T N).val ps x := lt_of_lt_of_le h0 h1
  have hs0 : 0 < y / curve (packaged nan T N).val ps x := div_pos h0 hpos
  have hs1 : y / curve (packaged nan T N).val ps x ≤ 1 := (div_le_one hpos).2 h1
  obtain ⟨ps', h2, h3, h4⟩ := c57_matches (sc := (packaged nan T N).sc) (val := (packaged nan T N).val) ps x y hpos.ne' (by
    intro p hpp
    obtain ⟨p', e1, e2, -, -⟩ := scaled_one hT (hp p hpp) hs0 hs1
    exact ⟨p', e1, e2⟩)
  refine ⟨ps', h2, h3, ?_⟩
  clear h2 h3
  change 0 < y / valueAt (packaged nan T N).val ps x at hs0
  change y / valueAt (packaged nan T N).val ps x ≤ 1 at hs1
  generalize y / valueAt (packaged nan T N).val ps x = s at h4 hs0 hs1
  clear h1 hpos
  induction h4 with
  | nil => exact List.Forall₂.nil
  | @cons p q ps qs e _ ih =>
    refine List.Forall₂.cons ?_ (ih fun r hr => hp r (List.mem_cons_of_mem _ hr))
    obtain ⟨p', e1, -, e3, e4⟩ := scaled_one hT (hp p List.mem_cons_self) hs0 hs1
    have e1' : scaleAt (packaged nan T N).sc p x s = (.ok true, p') := e1
    rw [e1'] at e
    simp only [Prod.mk.injEq, true_and] at e
    rw [← e]
    exact ⟨e3, (scaleAt_flags e1).1, (scaleAt_flags e1).2, e4⟩

end Verif.Parts.Package
