import Verif.Extract.Props
import Verif.ModelCluster.AugmentBest
import Verif.Parts.Props

/-!
# The assumptions on the numerics hold of the code

`Sane` asks for a fit that changes parameter values only, and a clean-up that removes removable peaks only.  Both
hold of `ModelParts.fit` with any optimiser whatsoever and of `cleanfit` without NaN.
-/

set_option linter.unusedSectionVars false

namespace Verif.Parts.Extract

open Verif.Py Verif.PeakList Verif.Parts.ModelCluster

variable {K : Type} [Field K] [LinearOrder K]

theorem frame_refl (p : Part K) : Frame p p := ⟨rfl, rfl, rfl, rfl, rfl, rfl⟩

theorem frame_trans {p q r : Part K} (h1 : Frame p q) (h2 : Frame q r) : Frame p r :=
  ⟨h2.owner.trans h1.owner, h2.free.trans h1.free, h2.removable.trans h1.removable, h2.static.trans h1.static, h2.shaped.trans h1.shaped,
    h2.fixed.trans h1.fixed⟩

theorem frames_refl (ps : List (Part K)) : List.Forall₂ Frame ps ps :=
  List.forall₂_same.2 (fun p _ => frame_refl p)

theorem frames_trans {a b c : List (Part K)} (h1 : List.Forall₂ Frame a b) (h2 : List.Forall₂ Frame b c) :
    List.Forall₂ Frame a c := by
  induction h1 generalizing c with
  | nil => cases h2; exact .nil
  | cons h _ ih => cases h2 with
    | cons h' t' => exact .cons (frame_trans h h') (ih t')

theorem frames_of_same {a b : List (Part K)} (h : List.Forall₂ SameButFree a b) : List.Forall₂ Frame a b :=
  h.imp (fun _ _ h => ⟨h.owner, h.free, h.removable, h.staticOwner, shaped_pars h.owner h.isInt h.length, fixed_pars h.owner h.free h.fixed⟩)

theorem cleanup_frame (ps : List (Part K)) : List.Forall₂ Frame ps (cleanup ps).2 := by
  induction ps with
  | nil => exact .nil
  | cons p ps ih =>
    unfold cleanup
    split
    · exact frames_refl _
    · rename_i ht; exact .cons ⟨rfl, rfl, rfl, rfl, shaped_transform ht, fixed_transform ht⟩ ih

theorem finishFit_frame (F : Flt K) (ps : List (Part K)) (nr n : ℕ) (cov : Bool) (x : List K) (ier : ℤ)
    (covx : Option (List (List K))) (fvec : List K) :
    List.Forall₂ Frame ps (finishFit F ps nr n cov x ier covx fvec).2 := by
  have h1 := frames_of_same (c15_pack_keeps_fixed F ps x)
  unfold finishFit
  split
  · rename_i hp; rw [hp] at h1; exact h1
  · rename_i ps' hp
    rw [hp] at h1
    by_cases h : ier ∉ [1, 2, 3, 4]
    · rw [if_pos h]; exact h1
    rw [if_neg h]
    have h2 := cleanup_frame ps'
    split
    · rename_i hc; rw [hc] at h2; exact frames_trans h1 h2
    · rename_i hc
      rw [hc] at h2
      split
      · split
        · exact frames_trans h1 h2
        · exact frames_trans h1 h2
      · exact frames_trans h1 h2

/-- Whatever the optimiser does, and however the fit ends, it leaves the same parts up to parameter values. -/
theorem partsFit_frame (F : Flt K) (ps : List (Part K)) (nr : ℕ) (cov : Bool) (l1 l2 : Lsq K) :
    List.Forall₂ Frame ps (Parts.fit F ps nr cov l1 l2).2 := by
  unfold Parts.fit
  split
  · exact frames_refl _
  split
  · exact frames_refl _
  split
  · exact frames_refl _
  have h1 := frames_of_same (runLsq_same F ps l1)
  split
  · rename_i hp; rw [hp] at h1; exact frames_trans h1 (finishFit_frame ..)
  · rename_i ps' hp
    rw [hp] at h1
    have h2 := frames_of_same (runLsq_same F ps' l2)
    split
    · rename_i hq; rw [hq] at h2; exact frames_trans h1 (frames_trans h2 (finishFit_frame ..))
    · rename_i hq; rw [hq] at h2; exact frames_trans h1 h2
  · rename_i hp; rw [hp] at h1; exact h1

theorem cleanfit_eq (isnan : K → Bool) (r0 r1 : K) (below : Part K → Bool) (ps : List (Part K)) :
    (cleanfit isnan r0 r1 below ps).2 =
      (ps.zipIdx.filter (fun x => !inRemove isnan r0 r1 below ps x.2)).map Prod.fst := by
  have := eraseIdx_loop ps ps.length (inRemove isnan r0 r1 below ps) (le_refl _)
  rw [List.take_length, List.drop_length, List.append_nil] at this
  exact this

theorem inRemove_removable (r0 r1 : K) (below : Part K → Bool) (ps : List (Part K)) (i : ℕ) (p : Part K)
    (hp : ps[i]? = some p) (h : inRemove (fun _ => false) r0 r1 below ps i = true) : p.removable = true := by
  unfold inRemove at h
  simp only [Bool.or_eq_true, List.contains_iff_mem, List.mem_filter, hp, Option.map_some, Option.getD_some,
    Bool.and_eq_true, List.any_eq_true, Bool.false_eq_true, and_false, exists_false, or_false] at h
  exact h.2.1

theorem cleanfit_sublist (isnan : K → Bool) (r0 r1 : K) (below : Part K → Bool) (ps : List (Part K)) :
    ((cleanfit isnan r0 r1 below ps).2).Sublist ps := by
  rw [cleanfit_eq]
  have : (ps.zipIdx.map Prod.fst) = ps := by simp
  conv_rhs => rw [← this]
  exact (List.filter_sublist).map _

theorem cleanfit_hard (r0 r1 : K) (below : Part K → Bool) (ps : List (Part K)) :
    (cleanfit (fun _ => false) r0 r1 below ps).2.filter (fun p => !p.removable) = ps.filter (fun p => !p.removable) := by
  rw [cleanfit_eq]
  have key : ∀ (l : List (Part K)) (k : ℕ), (∀ (i : ℕ) p, l[i]? = some p →
      inRemove (fun _ => false) r0 r1 below ps (k + i) = true → p.removable = true) →
      (((l.zipIdx k).filter (fun x => !inRemove (fun _ => false) r0 r1 below ps x.2)).map Prod.fst).filter
        (fun p => !p.removable) = l.filter (fun p => !p.removable) := by
    intro l
    induction l with
    | nil => intro k _; simp
    | cons c l ih =>
      intro k h
      have a1 := ih (k + 1) (fun i p hp => by
        have := h (i + 1) p (by simpa using hp)
        rwa [show k + (i + 1) = k + 1 + i by omega] at this)
      have hc := h 0 c rfl
      rw [Nat.add_zero] at hc
      rw [List.zipIdx_cons]
      by_cases hf : inRemove (fun _ => false) r0 r1 below ps k = true
      · rw [List.filter_cons_of_neg (by simp [hf]), a1, List.filter_cons_of_neg (by simp [hc hf])]
      · rw [List.filter_cons_of_pos (by simp [hf]), List.map_cons, List.filter_cons, a1, List.filter_cons]
  exact key ps 0 (fun i p hp h => inRemove_removable r0 r1 below ps i p hp (by rwa [Nat.zero_add] at h))

/-- **C69.** The assumptions on the numerics that C68–C70 make are met by the code itself: `ModelParts.fit` with any
optimiser (any evaluations, any outcome, any exception), `cleanfit` with any data, and an argsort that sorts. -/
theorem c69_actual_fit_tame (E : Env K) (has : SortsKeys E.as) (F : Flt K) (nr : ℕ) (cov : Bool)
    (l1 l2 : List (Part K) → Lsq K) (hlsq : E.lsq = lsqOf F nr cov l1 l2) (r0 r1 : K) (below : Part K → Bool)
    (hclean : ∀ ps, E.clean ps = (cleanfit (fun _ => false) r0 r1 below ps).2) : Tame E where
  sorts := has
  frame := by
    intro ps
    rw [hlsq]
    exact partsFit_frame F ps nr cov (l1 ps) (l2 ps)
  clean := by intro ps; rw [hclean]; exact cleanfit_sublist _ r0 r1 below ps
  hard := by intro ps; rw [hclean]; exact cleanfit_hard r0 r1 below ps

end Verif.Parts.Extract
