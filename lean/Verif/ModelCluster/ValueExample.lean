import Verif.ModelCluster.ValueProps
import Verif.ModelCluster.Prune

/-!
# Instances for C94: a cluster with two bumps on a level baseline
-/

namespace Verif.Parts.ModelCluster

open Verif.Py Verif.PeakList

/-- A level (one parameter), or a bump of height `h` at the points not further than one from `a`. -/
def bumpAt (p : List ℚ) (x : ℚ) : ℚ :=
  match p with
  | [b] => b
  | a :: h :: _ => if |x - a| ≤ 1 then h else 0
  | [] => 0

def bumpOwner (n : ℕ) : Owner ℚ := ⟨n, n, [("position", 0)], fun p l => l.map (bumpAt p), fun _ _ _ => [], fun p _ _ => .ok p⟩

def bump (a h : ℚ) (fix : Bool) : Part ℚ := ⟨bumpOwner 2, [a, h], [!fix, true], true, false, false⟩

def level (b : ℚ) : Part ℚ := ⟨bumpOwner 1, [b], [true], false, false, false⟩

/-- Points 1 to 4 of six. -/
def bumpy : Cluster ℚ :=
  ⟨[bump 2 4 false, bump 4 6 true], some (level 1), [0, 1, 2, 3, 4, 5], [1, 5, 6, 10, 8, 7], [1, 1, 1/2, 1, 1, 2], 0, 0, 0, 0, [2],
    some ⟨some 1, 5⟩, 0, false⟩

theorem bump_pointwise (m : List (Part ℚ)) (h : ∀ p ∈ m, ∃ n, p.owner = bumpOwner n) :
    PointwiseBy (fun p x => bumpAt p.pars x) m := by
  intro p hp l
  obtain ⟨n, hn⟩ := h p hp
  rw [hn]
  rfl

theorem bumpy_pointwise : PointwiseBy (fun p x => bumpAt p.pars x) (parts bumpy) := by
  apply bump_pointwise
  intro p hp
  simp only [parts, bumpy, Option.toList_some, List.cons_append, List.nil_append, List.mem_cons, List.not_mem_nil, or_false] at hp
  rcases hp with rfl | rfl | rfl <;> exact ⟨_, rfl⟩

example := (c94_value bumpy).1 ⟨some 1, 5⟩ rfl (by
  intro p hp
  rw [bumpy_pointwise p hp]
  simp)

example := c94_pointwise bumpy bumpy_pointwise

example := c94_residual bumpy bumpy_pointwise ⟨rfl, rfl⟩ rfl

example := c94_quality .aicc bumpy bumpy_pointwise ⟨rfl, rfl⟩ rfl false

/-- One of the four parameters of the peaks is fixed; that of the baseline is not counted. -/
example := c94_quality_negative .aic bumpy bumpy_pointwise rfl false (-4) (by decide)

example := c94_order bumpy bumpy_pointwise ⟨rfl, rfl⟩ rfl [bump 4 6 true, bump 2 4 false] (List.Perm.swap _ _ _) .aic false

theorem ext_pointwise : PointwiseBy (fun p x => bumpAt p.pars x) [bump 3 1 false] := by
  apply bump_pointwise
  intro p hp
  simp only [List.mem_cons, List.not_mem_nil, or_false] at hp
  exact ⟨_, by rw [hp]; rfl⟩

example := c94_external mergeAs mergeAs_sorts bumpy [bump 3 1 false] bumpy_pointwise ext_pointwise ⟨rfl, rfl⟩ rfl false

example := c94_plottable bumpy bumpy_pointwise rfl

/-- What the cluster shows. -/
def shownValue (r : Res (List ℚ)) : Option (List ℚ) := r.toOption

def shownStat (r : Res (Evaluator.Ev ℚ)) : Option ℚ := r.toOption.bind (fun a => a.stat)

example : shownValue (clusterValue bumpy none) = some [5, 5, 11, 7] ∧
    shownValue (clusterResidual bumpy) = some [0, 1, -1, 1] ∧
    shownStat (quality .aic bumpy false 0) = some (0 + 4 + 1 + 1 + 2 * 3) ∧
    shownStat (quality .aic bumpy true 0) = some (0 + 4 + 1 + 1 + 2 * 4) ∧
    posOf (addexternalpeaks mergeAs bumpy [bump 3 1 false]).2.model = [2, 3, 4] ∧
    (addexternalpeaks mergeAs bumpy [bump 3 1 false]).2.y = [1, 5, 7, 11, 9, 7] ∧
    (plottable bumpy false).toOption = some [[1, 2, 3, 4], [5, 6, 10, 8], [1, 2, 3, 4], [5, 5, 5, 1], [1, 2, 3, 4], [1, 1, 7, 7]] := by
  refine ⟨?_, ?_, ?_, ?_, ?_, ?_, ?_⟩ <;> decide +kernel

end Verif.Parts.ModelCluster
