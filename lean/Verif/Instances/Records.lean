import Verif.Srmiselog.Props
import Verif.Multimodel.StateProps
import Verif.PeakList.Props

/-!
Instances of the theorems on the log and the tracer (C49, C50), on model ranking (C45, C46, C79) and on peak lists
(C37, C57): each theorem with hypotheses is applied to concrete, non-trivial arguments.
-/

namespace Verif.Srmiselog

/-- Instance of `c49_effect`: a log with one file, all three calls with "debug". -/
example := c49_effect (addfilelog Log.init (.num 30)).1 (by decide) (.str "debug") 10 .debug

/-- Instance of `c50_trace`: a call that recurses once. -/
example := c50_trace (fun r _ (_ : ℕ) => r == 1) ⟨0, 7, 5, []⟩ rfl [.pushr, .emit 10, .pushc, .pushr, .emit 11, .popc, .popr, .emit 12, .popc, .popr]
  (by
    intro pre post h
    match pre with
    | [] => simp at h
    | [_] => simp at h
    | [_, _] => simp at h; obtain ⟨rfl, rfl, -⟩ := h; decide
    | [_, _, _] => simp at h
    | [_, _, _, _] => simp at h
    | [_, _, _, _, _] => simp at h
    | [_, _, _, _, _, _] => simp at h
    | [_, _, _, _, _, _, _] => simp at h
    | [_, _, _, _, _, _, _, _] => simp at h
    | [_, _, _, _, _, _, _, _, _] => simp at h
    | _ :: _ :: _ :: _ :: _ :: _ :: _ :: _ :: _ :: _ :: _ => simp at h)

/-- Instance of `c50_filter`: two filters. -/
example : ∃ f, setfilter [(fun r _ (_ : ℕ) => r == 1), (fun _ c _ => c == 0)] = .ok f ∧ f 1 0 7 = true ∧ f 1 1 7 = false := by
  obtain ⟨f, h1, h2⟩ := (c50_filter [(fun r _ (_ : ℕ) => r == 1), (fun _ c _ => c == 0)]).2 (by simp)
  refine ⟨f, h1, (h2 1 0 7).2 (by simp), ?_⟩
  cases h : f 1 1 7 with
  | false => rfl
  | true => simpa using (h2 1 1 7).1 h

/-- Instance of `c50_exception_not_reset`. -/
example := c50_exception_not_reset (fun _ _ (_ : ℕ) => true) ⟨0, 3, 4, []⟩ rfl 10 rfl

end Verif.Srmiselog

namespace Verif.Multimodel

/-- The order of the keys by merging, as an `argsort`. -/
noncomputable def exSort (keys : List ℝ) : List ℕ :=
  open Classical in (List.range keys.length).mergeSort (fun i j => decide (keys.getD i 0 ≤ keys.getD j 0))

theorem exSort_sorts : PeakList.SortsKeys exSort := by
  classical
  intro keys
  refine ⟨List.mergeSort_perm _ _, ?_⟩
  intro i j a b ka kb hij ha hb hka hkb
  have := List.pairwise_mergeSort (le := fun i j => decide (keys.getD i 0 ≤ keys.getD j 0))
    (by intro a b c; simp only [decide_eq_true_eq]; exact le_trans)
    (by intro a b; simp only [Bool.or_eq_true, decide_eq_true_eq]; exact le_total _ _) (List.range keys.length)
  rw [List.pairwise_iff_getElem] at this
  unfold exSort at ha hb
  obtain ⟨hi, ea⟩ := List.getElem?_eq_some_iff.1 ha
  obtain ⟨hj, eb⟩ := List.getElem?_eq_some_iff.1 hb
  have := this i j (by convert hi) (by convert hj) hij
  rw [decide_eq_true_eq, List.getD_eq_getElem?_getD, List.getD_eq_getElem?_getD] at this
  have e1 : keys[((List.range keys.length).mergeSort (fun i j => decide (keys.getD i 0 ≤ keys.getD j 0)))[i]'(by convert hi)]? = some ka := by
    rw [← hka, ← ea]
  have e2 : keys[((List.range keys.length).mergeSort (fun i j => decide (keys.getD i 0 ≤ keys.getD j 0)))[j]'(by convert hj)]? = some kb := by
    rw [← hkb, ← eb]
  rw [e1, e2] at this
  exact this

/-- Instance of `c45_all_models`: four models, the third the best, two equal. -/
example := c45_all_models exSort_sorts [5, 3, 1, 3] (by simp) [] 0

/-- Instance of `c45_class_models`: the second of two classes. -/
example := c45_class_models exSort [5, 3, 1, 3] [[0, 2], [1, 3]] 0 1 [1, 3] rfl

/-- Instance of `c45_classes`. -/
example := c45_classes exSort_sorts [5, 3, 1, 3] [[0, 2], [1, 3]] (by simp) (by simp)

/-- Instance of `c45_default`. -/
example : ∃ m, getModel exSort [5, 3, 1, 3] [[0, 2], [1, 3]] 0 0 .notGiven = .ok m ∧ ([5, 3, 1, 3] : List ℝ).getD m 0 ≤ 1 := by
  obtain ⟨m, -, -, h, -, -, -, -, h2⟩ := c45_default exSort_sorts [5, 3, 1, 3] (by simp) [[0, 2], [1, 3]] (by decide) (by simp)
  exact ⟨m, h, h2 2 (by simp)⟩

/-- Instance of `c45_prob_of_class`. -/
example := c45_prob_of_class exSort [5, 3, 1, 3] [[0, 2], [1, 3]] (by simp) [(0, 0), (1, 1), (2, 0), (3, 1)] (by simp) (by
    intro c cls i hc hi
    match c with
    | 0 => simp at hc; subst hc; simp at hi; rcases hi with rfl | rfl <;> decide
    | 1 => simp at hc; subst hc; simp at hi; rcases hi with rfl | rfl <;> decide
    | c + 2 => simp at hc)

/-- Instance of `c45_modelbestdgs`: three uncertainties; model 2, of class 0, is best at the first and the third. -/
example : modelbestdgs [10, 11, 12] (fun d => if d = 11 then 1 else 0) (fun _ c => if c = 0 then 2 else 1) [(0, 0), (1, 1), (2, 0)] 2 none =
    .ok [10, 12] ∧ ∀ dg ∈ [10, 11, 12], classOf [(0, 0), (1, 1), (2, 0)] ((fun (_ : ℕ) c => if c = 0 then 2 else 1) dg
      ((fun d => if d = 11 then 1 else 0) dg)) = some ((fun d => if d = 11 then 1 else 0) dg) := by decide

/-- Instance of `c46_rescaled`: half the uncertainty, a model with two of three parameters free. -/
example := c46_rescaled .aicc [1, 2, 3, 4, 5] (2 : ℚ) 1 (by norm_num) ⟨2, 3, [1, 2, 3, 4, 4]⟩

/-- Instance of `c46_makeaics_distinct`. -/
example : makeaics [1, 2, 3] (fun (m : Fitted ℚ) dg => m.nfree + dg) [⟨1, 1, []⟩, ⟨5, 5, []⟩] 2 = [3, 7] := by
  rw [c46_makeaics_distinct _ (by decide) _ _ _ (by simp)]; norm_num

/-- Instance of `c79_models`. -/
example := c79_models exSort_sorts (fun (r dg : ℕ) => ((r : ℝ) - 2) ^ 2 * dg) [5, 7] (by decide) (by decide) exState (by decide)

/-- Instance of `c79_maxprobdG`, `c79_class_not_of_model`, `c79_classes_stale`. -/
example := c79_maxprobdG exSort (fun (r dg : ℕ) => ((r : ℝ) - 2) ^ 2 * dg) exCl [5, 7] (by decide) (by decide) exState (by decide) exCl_partitions

example (free : ℕ → Free) := c79_class_not_of_model (as := exSort) (fun (r dg : ℕ) => ((r : ℝ) - 2) ^ 2 * dg) exCl [5, 7] (by decide)
  exState (by decide) exCl_partitions free 7 (by decide)

example := c79_classes_stale exSort (fun (r dg : ℕ) => ((r : ℝ) - 2) ^ 2 * dg) [5, 7] (by decide) (by decide) exState (by decide) 7

end Verif.Multimodel

namespace Verif.PeakList
open Verif.Py Verif.Parts

/-- Whether an answer is True. -/
def isTrue : Res Bool → Bool
  | .ok b => b
  | .error _ => false

theorem isTrue_iff (r : Res Bool) (h : isTrue r = true) : r = .ok true := by
  cases r with
  | error e => simp [isTrue] at h
  | ok b => simp only [isTrue] at h; rw [h]

/-- Instance of `c57_matches`: two boxes of heights 1 and 3, to be 5 together. -/
example := c57_matches (sc := boxScale) (val := boxVal) [box 1 true, box 3 true] 0 5 (by decide +kernel) (by
  intro p hp
  simp only [List.mem_cons, List.not_mem_nil, or_false] at hp
  rcases hp with rfl | rfl
  · exact ⟨(scaleAt boxScale (box 1 true) 0 (5 / valueAt boxVal [box 1 true, box 3 true] 0)).2,
      Prod.ext (isTrue_iff _ (by decide +kernel)) rfl, by decide +kernel⟩
  · exact ⟨(scaleAt boxScale (box 3 true) 0 (5 / valueAt boxVal [box 1 true, box 3 true] 0)).2,
      Prod.ext (isTrue_iff _ (by decide +kernel)) rfl, by decide +kernel⟩)

/-- Instances of `c57_scale_at`, `c57_fixed_kept`: a fixed and two free peaks. -/
example := c57_scale_at boxScale_len (box 3 true) rfl 0 2

theorem exFlagged : Flagged [box 3 true, box 3 true, box 1 false] := by
  intro p hp
  simp only [List.mem_cons, List.not_mem_nil, or_false] at hp
  rcases hp with rfl | rfl | rfl <;> rfl

example := c57_fixed_kept boxScale_len boxVal [box 3 true, box 3 true, box 1 false] exFlagged 0 10

/-- Instance of `c57_false_unchanged`. -/
example := c57_false_unchanged boxScale_len (val := boxVal) [box 3 true, box 3 true, box 1 false] exFlagged (by decide) 0 10 (by decide +kernel)

/-- Instance of `c57_false_two_peaks`: a negative target. -/
example := c57_false_two_peaks boxScale_len (val := boxVal) (box 3 true) (box 1 false)
  (fun p hp => exFlagged p (by simp only [List.mem_cons, List.not_mem_nil, or_false] at hp ⊢; tauto)) 0 (-10) (by decide +kernel)

end Verif.PeakList
