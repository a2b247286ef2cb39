import Verif.ModelCluster.AugmentBest
import Verif.ModelCluster.Join

/-!
# C25 – C29, C58 – C60: further instances
-/

set_option linter.unusedSectionVars false

namespace Verif.Parts.ModelCluster

open Verif.Py Verif.PeakList

/-- Instance of `c60_augment_peaks`: the world asks for positions that add up to 5; of the source the peak at 3 is taken,
with the one at 2 already there, but not the one at 7. -/
example : Tame ((sumWorld (1/10) (fun ps => (.ok (), ps)) id).env []) ∧
    posOf (augment ((sumWorld (1/10) (fun ps => (.ok (), ps)) id).env []) pickBest { exCluster with model := [pk 2 true] } [pk 7 true, pk 3 true]).2.model = [2, 3] ∧
    errOf (augment ((sumWorld (1/10) (fun ps => (.ok (), ps)) id).env []) pickBest { exCluster with model := [pk 2 true] } [pk 7 true, pk 3 true]).1 = none :=
  ⟨sumWorld_tame _ _, by decide +kernel, by decide +kernel⟩

/-- Instance of `c60_nonremovable_refused`: the peak at 2 cannot be removed. -/
example : (∃ p ∈ [pk 2 false], p.removable = false) ∧
    (errOf (augment ((sumWorld (1/10) (fun ps => (.ok (), ps)) id).env []) pickBest { exCluster with model := [pk 2 false] } [pk 7 true, pk 3 true]).1).isSome = true :=
  ⟨⟨_, List.mem_singleton.2 rfl, rfl⟩, by decide +kernel⟩

/-- Instance of C26: of three peaks the last two are replaced, unless one of them must stay; one is deleted. -/
example : SortsKeys (mergeAs (K := ℚ)) ∧
    posOf (replacepeaks mergeAs [pk 1 false, pk 2 true, pk 3 true] [pk 5 true, pk 0 true] 1 3).2 = [0, 1, 5] ∧
    errOf (replacepeaks mergeAs [pk 1 true, pk 2 false, pk 3 true] [pk 5 true] 1 3).1 = some .value ∧
    posOf (deletepeak mergeAs [pk 1 false, pk 2 true, pk 3 true] 1).2 = [1, 3] ∧
    errOf (deletepeak mergeAs [pk 1 false, pk 2 true, pk 3 true] 0).1 = some .value :=
  ⟨mergeAs_sorts, by decide +kernel, by decide +kernel, by decide +kernel, by decide +kernel⟩

/-- Instance of `c28_default_slice_raises`: all data below; the second slice cannot be set. -/
example : ∃ c', changeSlice [-1, -1, -3, -1] exCluster ⟨none, 4⟩ = (.ok (), c') ∧ exCluster.slice = none ∧
    (∀ v ∈ ([-1, -1, -3, -1] : List ℚ), v < 0) ∧ (changeSlice [-1, -1, -3, -1] c' ⟨some 0, 2⟩).1 = .error .type := by
  refine ⟨_, rfl, rfl, by decide +kernel, ?_⟩
  exact c28_default_slice_raises _ exCluster _ 4 rfl rfl (by simp) (by omega) (by decide +kernel) _

/-- Instance of `c28_contingent_fit` and `c28_not_twice`: a cluster of three points is fitted (2 points were asked for), but
not again before it has grown by half. -/
example : let c : Cluster ℚ := { exFitted with slice := some ⟨some 0, 3⟩, lastFit := 0 }
    c.model ≠ [] ∧ 0 < c.size ∧ c.neverFit = false ∧
    statOf (contingentFit exEnv c 2 (3/2)).1 = statOf (fit exEnv { justify := true } c).1 ∧
    (statOf (contingentFit exEnv c 2 (3/2)).1).isSome = true ∧
    (contingentFit exEnv (fit exEnv {} c).2.1 2 (3/2)).1 = .ok none ∧ (contingentFit exEnv c 5 (3/2)).1 = .ok none := by
  have h1 : ({ exFitted with slice := some ⟨some 0, 3⟩, lastFit := 0 } : Cluster ℚ).model ≠ [] := by
    intro h; simp [exFitted] at h
  have h2 : 0 < ({ exFitted with slice := some ⟨some 0, 3⟩, lastFit := 0 } : Cluster ℚ).size := by decide +kernel
  refine ⟨h1, h2, rfl, by decide +kernel, by decide +kernel, ?_, rfl⟩
  rw [c28_not_twice exEnv {} _ h1 h2 2 (3/2) (by norm_num)]

/-- Instance of `c27_exception_moves_parameters`: the optimiser raises ValueError at other parameters. -/
example : (fit { exEnv with lsq := fun ps => (.error .value, ps.map (fun p => { p with pars := [9] })) } {} exFitted).1 = .error .value :=
  (c27_exception_moves_parameters _ exFitted (by intro h; simp [exFitted] at h) rfl .value (by simp) _ rfl).1

/-- Instance of `c27_fit_empty`: an empty model, and an estimate that is fitted. -/
example : ∃ p, Comparable ({ exEnv with estimate := .ok (some (box 3 true)) } : Env ℚ) ∧ ({ exEnv with estimate := .ok (some (box 3 true)) } : Env ℚ).estimate = .ok (some p) ∧
    (statOf (fit { exEnv with estimate := .ok (some (box 3 true)) } {} { exFitted with model := [] }).1).isSome = true :=
  ⟨_, ⟨"AIC", false, fun _ _ => ⟨_, rfl, rfl, rfl⟩⟩, rfl, by decide +kernel⟩

/-- Instance of `c58_cleanfit`: of five sorted peaks, the low removable ones outside the data go. -/
example : [pk 1 true, pk 2 true, pk 3 true, pk 4 true, pk 5 false].Pairwise (fun p q => pos p ≤ pos q) ∧
    posOf (cleanfit (fun _ => false) 2 4 (fun p => decide (pos p ≠ 2)) [pk 1 true, pk 2 true, pk 3 true, pk 4 true, pk 5 false]).2 = [2, 3, 5] :=
  ⟨by decide +kernel, by decide +kernel⟩

/-- Instance of `c29_fixed_parameters_counted`. -/
example : (∀ q ∈ [pk 1 true, ⟨boxOwner, [2], [false], true, false, false⟩, pk 3 true], q.npars false ≤ q.npars true) ∧
    addpars [pk 1 true, ⟨boxOwner, [2], [false], true, false, false⟩, pk 3 true] 1 = 1 := by
  refine ⟨?_, by decide +kernel⟩
  intro q hq
  simp only [List.mem_cons, List.not_mem_nil, or_false] at hq
  rcases hq with rfl | rfl | rfl <;> decide

end Verif.Parts.ModelCluster
