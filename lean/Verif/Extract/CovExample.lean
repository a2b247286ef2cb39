import Verif.Extract.CovProps

/-!
# Instances and findings for C97

The peaks of one point of `Extract/CodeExample.lean`, and optimisers that move them.
-/

set_option linter.unusedSectionVars false

namespace Verif.Parts.Extract

open Verif.Py Verif.PeakList Verif.Parts.ModelCluster Verif.Parts.Covariance Verif.Extraction

/-- An optimiser that goes to `x` if it has as many free parameters, and otherwise stays. -/
def goTo (x : List ℚ) (m : List (Part ℚ)) : Lsq ℚ :=
  if npars m false = x.length then ⟨[], .done x 1 (some (eye (npars m false))) [1]⟩ else stay m

/-- The peaks of one point with an optimiser that goes to `x`. -/
def going (x : List ℚ) : Numerics ℚ := { spots .aic with opt := fun _ m => (goTo x m, goTo x m) }

theorem eye_square (n : ℕ) : (eye n).length = n ∧ ∀ row ∈ eye n, row.length = n := by
  unfold eye
  refine ⟨by simp, ?_⟩
  intro row h
  obtain ⟨i, -, rfl⟩ := List.mem_map.1 h
  simp

theorem stay_squared (m : List (Part ℚ)) : Squared (stay m) (npars m false) := by
  intro x ier C f h
  unfold stay stayCov at h
  simp only [Outcome.done.injEq, Option.some.injEq] at h
  rw [← h.2.2.1]
  exact eye_square _

theorem goTo_squared (x : List ℚ) (m : List (Part ℚ)) : Squared (goTo x m) (npars m false) := by
  unfold goTo
  split
  · intro x ier C f h
    simp only [Outcome.done.injEq, Option.some.injEq] at h
    rw [← h.2.2.1]
    exact eye_square _
  · exact stay_squared m

theorem spots_squares (k : Evaluator.Kind) : Squares (spots k) := fun _ m => ⟨stay_squared m, stay_squared m⟩

theorem going_squares (x : List ℚ) : Squares (going x) := fun _ m => ⟨goTo_squared x m, goTo_squared x m⟩

theorem going_sorting (x : List ℚ) : Sorting (going x) := ⟨mergeAs_sorts, pickBest_one, spots_scales .aic⟩

theorem spot_proper (a h : ℚ) : Proper (spot a h) := ⟨rfl, rfl, rfl, (show 0 < 2 by omega), by
  intro v i o q e
  simp only [spot, spotOwner, Except.ok.injEq] at e
  rw [e]⟩

theorem spots_funcs (x : List ℚ) : ProperFuncs (going x) [7] := by
  intro f _
  refine ⟨by show 0 < 2; omega, ?_⟩
  intro v i o q e
  have e' : (Except.ok v : Res (List ℚ)) = .ok q := e
  simp only [Except.ok.injEq] at e'
  rw [e']

theorem proper_two (a b c d : ℚ) : ∀ p ∈ [spot a b, spot c d], Proper p := by
  intro p hp
  simp only [List.mem_cons, List.not_mem_nil, or_false] at hp
  rcases hp with rfl | rfl <;> exact spot_proper _ _

theorem proper_one (a b : ℚ) : ∀ p ∈ [spot a b], Proper p := by
  intro p hp
  rw [List.mem_singleton.1 hp]
  exact spot_proper _ _

/-- The gradient of a transformation that changes nothing. -/
def unit : Part ℚ → Res (ℕ → ℕ → ℚ) := fun _ => .ok (fun a b => if a = b then 1 else 0)

/-- A fit with covariance (no gradients needed: nothing is transformed). -/
def fitGoing (x : List ℚ) (m : List (Part ℚ)) : Res (Option (Evaluator.Ev ℚ)) × Cluster ℚ × MC ℚ :=
  clusterFit (going x) unit (some "default_output") {} (spotCluster m) MC.empty

/-- Whether the fit was kept, the positions of the peaks of the result, and the values of parameter 0 of the first parts in the
covariance object. -/
def outcome (r : Res (Option (Evaluator.Ev ℚ)) × Cluster ℚ × MC ℚ) : Option Bool × List ℚ × List (Option ℚ) :=
  (r.1.toOption.map Option.isSome, r.2.1.model.map pos,
    (List.range 3).map (fun i => (r.2.2.getvalue (.pair i 0)).toOption))

theorem kept_of {r : Res (Option (Evaluator.Ev ℚ))} (h : r.toOption.map Option.isSome = some true) : ∃ q, r = .ok (some q) := by
  match r, h with
  | .ok (some q), _ => exact ⟨q, rfl⟩

theorem lost_of {r : Res (Option (Evaluator.Ev ℚ))} (h : r.toOption.map Option.isSome = some false) : r = .ok none := by
  match r, h with
  | .ok none, _ => rfl

/-- Two peaks, moved by the fit to their places in order: the covariance has the numbering of the result. -/
example : outcome (fitGoing [2, 4, 5, 1] [spot 1 1, spot 4 1]) = (some true, [2, 5], [some 2, some 5, none]) := by decide +kernel

example : ∃ q, (fitGoing [2, 4, 5, 1] [spot 1 1, spot 4 1]).1 = .ok (some q) := kept_of (by decide +kernel)

example {q : Evaluator.Ev ℚ} (h : (fitGoing [2, 4, 5, 1] [spot 1 1, spot 4 1]).1 = .ok (some q)) :=
  c97_kept (going [2, 4, 5, 1]) (going_sorting _) (going_squares _) unit (some "default_output") {}
    (spotCluster [spot 1 1, spot 4 1]) MC.empty (spots_funcs _) (proper_two _ _ _ _) (by intro b h; cases h)
    (c' := (fitGoing [2, 4, 5, 1] [spot 1 1, spot 4 1]).2.1) (st' := (fitGoing [2, 4, 5, 1] [spot 1 1, spot 4 1]).2.2)
    (Prod.ext h rfl)

/-- **C97 (finding).** The numbering of the covariance need not be that of the result: if peaks change places in the
last fit, the result is sorted but the covariance object is not. -/
theorem c97_reordered : Sorting (going [5, 1, 2, 4]) ∧ Squares (going [5, 1, 2, 4]) ∧
    (∀ p ∈ (spotCluster [spot 1 1, spot 4 1]).model, Proper p) ∧
    outcome (fitGoing [5, 1, 2, 4] [spot 1 1, spot 4 1]) = (some true, [2, 5], [some 5, some 2, none]) :=
  ⟨going_sorting _, going_squares _, proper_two _ _ _ _, by decide +kernel⟩

/-- **C97 (finding).** Nor need all its parts be in the result: of two peaks, the fit moves the second out of the data and it is removed;
the covariance object keeps it. -/
theorem c97_removed : Sorting (going [2, 4, 7, 1]) ∧ Squares (going [2, 4, 7, 1]) ∧
    (∀ p ∈ (spotCluster [spot 2 4, spot 5 1]).model, Proper p) ∧
    outcome (fitGoing [2, 4, 7, 1] [spot 2 4, spot 5 1]) = (some true, [2], [some 2, some 7, none]) :=
  ⟨going_sorting _, going_squares _, proper_two _ _ _ _, by decide +kernel⟩

/-- Instance of `c97_reverted`: the fit moves a peak away from the data; the result keeps it at 2, the covariance object has it at 3. -/
example : outcome (fitGoing [3, 4] [spot 2 4]) = (some false, [2], [some 3, none, none]) := by decide +kernel

example := c97_reverted (going [3, 4]) (going_sorting _) (going_squares _) unit (some "default_output") {}
  (spotCluster [spot 2 4]) MC.empty (spots_funcs _) (proper_one _ _) (by intro b h; cases h) (c1 := spotCluster [spot 2 4])
  (c' := (fitGoing [3, 4] [spot 2 4]).2.1) (st' := (fitGoing [3, 4] [spot 2 4]).2.2)
  (Prod.ext (lost_of (by decide +kernel)) rfl) rfl (qs := [spot 3 4]) rfl (by decide)

/-- Instance of `c97_untouched`: an optimiser that does not converge; nothing to fit. -/
def stuck : Numerics ℚ := { spots .aic with opt := fun _ m => (⟨[], .done (m.flatMap stayAt) 5 none []⟩, ⟨[], .done (m.flatMap stayAt) 5 none []⟩) }

example := c97_untouched (spots .aic) (spots_sorting _) (spots_squares _) unit (some "default_output")
  { estimate := false } (spotCluster []) MC.empty (spots_funcs []) (by intro p h; cases h) (by intro b h; cases h)
  (by intro c1 h; simp [started, spotCluster] at h)

example : (clusterFit stuck unit (some "default_output") {} (spotCluster [spot 2 4]) MC.empty).2.2 = MC.empty := by
  refine c97_untouched stuck ⟨mergeAs_sorts, pickBest_one, spots_scales .aic⟩ ?_ _ (some "default_output") {} (spotCluster [spot 2 4]) MC.empty (spots_funcs [])
    (proper_one _ _) (by intro b h; cases h) ?_
  · intro c ps
    constructor <;> (intro x ier C f h; simp [stuck] at h)
  · intro c1 h
    left
    have : c1 = spotCluster [spot 2 4] := by
      have h' : some (spotCluster [spot 2 4]) = some c1 := h
      simpa using h'.symm
    subst this
    show ((codeWorld stuck).covLsq (spotCluster [spot 2 4]) [spot 2 4]).1 ≠ .ok ()
    have hn : ((codeWorld stuck).covLsq (spotCluster [spot 2 4]) [spot 2 4]).1.toOption = none := by decide +kernel
    intro hc
    rw [hc] at hn
    cases hn

def covShown (r : Res (Cluster ℚ × MC ℚ)) : Option (List ℚ × List (Option ℚ)) :=
  match r with
  | .error _ => none
  | .ok (c, st) => some (c.model.map pos, (List.range 5).map (fun i => (st.getvalue (.pair i 0)).toOption))

/-- The whole search (the baseline has no parameter).  With AICc it finds two peaks, and the covariance describes them; with AIC it
finds four, the last fit fails because they have more parameters than there are points, and the covariance is undefined. -/
example : covShown (extractCov (spots .aicc) unit dotHeap dotDef (dotVars none none)) = some ([1, 2], [some 1, some 2, none, none, none]) ∧
    covShown (extractCov (spots .aic) unit dotHeap dotDef (dotVars none none)) = some ([1, 2, 4, 6], [none, none, none, none, none]) := by
  constructor <;> decide +kernel

theorem dot_whole (i : ℕ) : Whole (dotHeap.base i) := ⟨rfl, rfl, rfl, by
  intro v i o q e
  simp only [dotHeap, Except.ok.injEq] at e
  rw [e]⟩

/-- No initial peaks. -/
def bareHeap : Heap ℚ := { dotHeap with peaks := fun _ => [] }

theorem spots_funcs' (k : Evaluator.Kind) : ProperFuncs (spots k) [7] := by
  intro f _
  refine ⟨by show 0 < 2; omega, ?_⟩
  intro v i o q e
  have e' : (Except.ok v : Res (List ℚ)) = .ok q := e
  simp only [Except.ok.injEq] at e'
  rw [e']

/-- Instances of `c97_extract` and `c98_extract`: these searches. -/
example := c97_extract (spots .aicc) (spots_sorting _) (spots_squares _) unit bareHeap dotDef (dotVars none none) rfl
  (fun _ => spots_funcs' _) (by intro i p hp; cases hp) dot_whole (dotVars_usable _ (Or.inl rfl)).ready

example {c : Cluster ℚ} (h : extractSingle (codeWorld (spots .aicc)) bareHeap dotDef 3 1 (dotVars none none) = .ok c) :=
  c98_extract (spots .aicc) (H := bareHeap) (D := dotDef) (spots_sorting _) rfl (fun _ => spots_funcs' _) (by intro i p hp; cases hp) dot_whole
    (dotVars_usable _ (Or.inl rfl)).ready h

example : shown (extractSingle (codeWorld (spots .aicc)) bareHeap dotDef 3 1 (dotVars none none)) = some [(7, [1, 3]), (7, [2, 5])] := by
  decide +kernel

/-- One spot as initial peak. -/
def spotObj : Obj ℚ :=
  ⟨dotVars (some 1) none, { dotHeap with peaks := fun i => if i = 1 then [spot 2 4] else [] }, none⟩

/-- Instance of `c97_fit_single`. -/
example := c97_fit_single (going [2, 5]) (going_sorting _) (going_squares _) unit dotDef spotObj (fun _ => spots_funcs _)
  (by
    intro i p hp
    simp only [spotObj] at hp
    split at hp
    · exact proper_one _ _ p hp
    · cases hp)
  (by intro i h; exact absurd h (show ¬ 0 < 0 by omega))

/-- Instance of `c98_fit_single`. -/
example {o' : Obj ℚ} (h : fitSingle (codeWorld (going [2, 5])) dotDef spotObj = (.ok (), o')) :=
  c98_fit_single (going [2, 5]) (going_sorting _)
    (by
      intro i p hp
      simp only [spotObj] at hp
      split at hp
      · exact proper_one _ _ p hp
      · cases hp)
    dot_whole (dotVars_ready (some 1) none) h

example : covShown (fitSingleCov (going [2, 5]) unit dotDef spotObj) = some ([2], [some 2, none, none, none, none]) := by decide +kernel

end Verif.Parts.Extract
