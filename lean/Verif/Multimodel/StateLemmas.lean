import Verif.Multimodel.StateModel

/-!
# Lemmas about the state of `MultimodelSelection`
-/

namespace Verif.Multimodel

open Verif.Py

set_option linter.unusedSectionVars false

variable {R D : Type} [DecidableEq D]

theorem fill_not_mem {α : Type} (f : D → Res α) (ks : List D) (d : D → Option α) (k : D) (h : k ∉ ks) :
    (fill f ks d).1 k = d k := by
  induction ks generalizing d with
  | nil => rfl
  | cons a ks ih =>
    simp only [fill]
    cases f a with
    | error e => rfl
    | ok v =>
      simp only
      rw [ih _ (fun hm => h (List.mem_cons_of_mem _ hm))]
      simp only [setKey]
      rw [if_neg (fun e : k = _ => h (e ▸ List.mem_cons_self))]

theorem fill_ok {α : Type} (f : D → Res α) (g : D → α) (ks : List D) (d : D → Option α) (h : ∀ k ∈ ks, f k = .ok (g k)) :
    (fill f ks d).2 = .ok () ∧ ∀ k ∈ ks, (fill f ks d).1 k = some (g k) := by
  induction ks generalizing d with
  | nil => exact ⟨rfl, by simp⟩
  | cons a ks ih =>
    simp only [fill, h a List.mem_cons_self]
    obtain ⟨h1, h2⟩ := ih (setKey d a (g a)) (fun k hk => h k (List.mem_cons_of_mem _ hk))
    refine ⟨h1, fun k hk => ?_⟩
    by_cases hin : k ∈ ks
    · exact h2 k hin
    · rw [fill_not_mem _ _ _ _ hin]
      rcases List.mem_cons.1 hk with rfl | hk
      · simp [setKey]
      · exact absurd hk hin

theorem foldl_setKey (dgs : List D) (aics : D → Option Aics) (k : D) :
    dgs.foldl (fun a dg => setKey a dg ⟨false, []⟩) aics k = if k ∈ dgs then some ⟨false, []⟩ else aics k := by
  induction dgs generalizing aics with
  | nil => simp
  | cons d l ih =>
    rw [List.foldl_cons, ih]
    by_cases h : k ∈ l
    · rw [if_pos h, if_pos (List.mem_cons_of_mem _ h)]
    · rw [if_neg h]
      simp only [setKey]
      by_cases hd : k = d
      · rw [if_pos hd, if_pos (hd ▸ List.mem_cons_self)]
      · rw [if_neg hd, if_neg (by simp [hd, h])]

theorem foldl_append_not_mem (f : D → ℝ) (dgs : List D) (aics : D → Option Aics) (k : D) (h : k ∉ dgs) :
    dgs.foldl (fun a dg => appendAic a dg (f dg)) aics k = aics k := by
  induction dgs generalizing aics with
  | nil => rfl
  | cons d l ih =>
    rw [List.foldl_cons, ih _ (fun hm => h (List.mem_cons_of_mem _ hm))]
    simp only [appendAic]
    rw [if_neg (fun e : k = _ => h (e ▸ List.mem_cons_self))]

theorem foldl_append_mem (f : D → ℝ) (dgs : List D) (hnd : dgs.Nodup) (aics : D → Option Aics) (k : D) (h : k ∈ dgs) :
    dgs.foldl (fun a dg => appendAic a dg (f dg)) aics k = (aics k).map (fun a => ⟨a.raw, a.stats ++ [f k]⟩) := by
  induction dgs generalizing aics with
  | nil => simp at h
  | cons d l ih =>
    rw [List.nodup_cons] at hnd
    rw [List.foldl_cons]
    by_cases hd : k = d
    · subst hd
      rw [foldl_append_not_mem _ _ _ _ hnd.1]
      simp only [appendAic, if_true]
    · rw [ih hnd.2 _ ((List.mem_cons.1 h).resolve_left hd)]
      simp only [appendAic, if_neg hd]

theorem foldl_results (entry : R → D → ℝ) (dgs : List D) (hnd : dgs.Nodup) (rs : List R) (aics : D → Option Aics) (k : D)
    (h : k ∈ dgs) (a : Aics) (ha : aics k = some a) :
    rs.foldl (fun a m => dgs.foldl (fun a dg => appendAic a dg (entry m dg)) a) aics k =
      some ⟨a.raw, a.stats ++ rs.map (fun m => entry m k)⟩ := by
  induction rs generalizing aics a with
  | nil => simpa using ha
  | cons m rs ih =>
    rw [List.foldl_cons, ih _ _ (by rw [foldl_append_mem _ _ hnd _ _ h, ha]; rfl)]
    simp

/-- What `makeaics` does, when there are results and uncertainties. -/
theorem makeaics_ok (as : List ℝ → List ℕ) (entry : R → D → ℝ) (dgs : List D) (hnd : dgs.Nodup) (hd : dgs ≠ [])
    (st : State R D) (hr : st.results ≠ []) :
    (st.makeaics as entry dgs).2 = .ok () ∧
    (st.makeaics as entry dgs).1.results = st.results ∧ (st.makeaics as entry dgs).1.dgs = dgs ∧
    (∀ dg ∈ dgs, ∃ p, probs (st.results.map (fun m => entry m dg)) = .ok p ∧
      (st.makeaics as entry dgs).1.aics dg = some ⟨false, st.results.map (fun m => entry m dg)⟩ ∧
      (st.makeaics as entry dgs).1.aicprobs dg = some p ∧ (st.makeaics as entry dgs).1.sortedprobs dg = some (as p)) ∧
    (∀ dg, dg ∉ dgs → (st.makeaics as entry dgs).1.aicprobs dg = none ∧ (st.makeaics as entry dgs).1.sortedprobs dg = none) ∧
    (st.makeaics as entry dgs).1.classes = st.classes ∧ (st.makeaics as entry dgs).1.classesIdx = st.classesIdx ∧
    (st.makeaics as entry dgs).1.sortedclasses = st.sortedclasses ∧ (st.makeaics as entry dgs).1.classprobs = st.classprobs ∧
    (st.makeaics as entry dgs).1.sortedclassprobs = st.sortedclassprobs := by
  simp only [State.makeaics]
  rw [if_neg (fun h => hd h.1)]
  generalize haics : st.results.foldl (fun a m => dgs.foldl (fun a dg => appendAic a dg (entry m dg)) a)
    (dgs.foldl (fun a dg => setKey a dg ⟨false, []⟩) st.aics) = aics
  have ha : ∀ dg ∈ dgs, aics dg = some ⟨false, st.results.map (fun m => entry m dg)⟩ := by
    intro dg h
    rw [← haics, foldl_results entry dgs hnd _ _ dg h ⟨false, []⟩ (by rw [foldl_setKey, if_pos h])]
    rfl
  have hne : ∀ dg, st.results.map (fun m => entry m dg) ≠ [] := fun dg => by simpa using hr
  have hw : ∀ dg, ∃ w, weights (st.results.map (fun m => entry m dg)) = .ok w := by
    intro dg
    obtain ⟨w, _, hw, -⟩ := Evaluator.c13_weights _ (hne dg)
    exact ⟨w, by simp only [weights, hw]⟩
  choose W hW using hw
  have hp : ∀ dg, ∃ p, probs (st.results.map (fun m => entry m dg)) = .ok p := fun dg => probs_ok _ (hne dg)
  choose P hP using hp
  obtain ⟨w1, -⟩ := fill_ok (ofAics weights aics) W dgs (fun _ => none) (fun k hk => by
    simp only [ofAics, look, ha k hk, statsOf, Bool.false_eq_true, if_false, hW])
  obtain ⟨p1, p2⟩ := fill_ok (ofAics probs aics) P dgs (fun _ => none) (fun k hk => by
    simp only [ofAics, look, ha k hk, statsOf, Bool.false_eq_true, if_false, hP])
  obtain ⟨s1, s2⟩ := fill_ok (argsortOf as (fill (ofAics probs aics) dgs (fun _ => none)).1) (fun dg => as (P dg)) dgs
    (fun _ => none) (fun k hk => by simp only [argsortOf, look, p2 k hk])
  simp only [andThen, makeaicweights, makeaicprobs, makesortedprobs, w1, p1, s1]
  refine ⟨trivial, trivial, trivial, fun dg h => ⟨P dg, hP dg, ha dg h, p2 dg h, s2 dg h⟩, fun dg h => ⟨?_, ?_⟩, ?_, ?_, ?_, ?_, ?_⟩
  · exact fill_not_mem _ _ _ _ h
  · exact fill_not_mem _ _ _ _ h
  all_goals trivial

theorem mapM_ok {α β : Type} (f : α → Res β) (g : α → β) (l : List α) (h : ∀ a ∈ l, f a = .ok (g a)) :
    l.mapM f = .ok (l.map g) := by
  induction l with
  | nil => rfl
  | cons a l ih =>
    rw [List.mapM_cons, h a List.mem_cons_self, ih (fun b hb => h b (List.mem_cons_of_mem _ hb))]
    rfl

theorem getLastD_eq {α : Type} (l : List α) (d : α) (h : l ≠ []) : fromEnd l 0 = .ok (l.getLastD d) := by
  obtain ⟨l', a, rfl⟩ : ∃ l' a, l = l' ++ [a] := ⟨l.dropLast, l.getLast h, (List.dropLast_append_getLast h).symm⟩
  simp [fromEnd]

/-- What `classify` does, when the statistics of all the results at all the uncertainties are there. -/
theorem classify_ok (as : List ℝ → List ℕ) (cl : List R → List (List ℕ) × List (ℕ × ℕ)) (st : State R D)
    (stats : D → List ℝ) (hst : ∀ dg ∈ st.dgs, st.aics dg = some ⟨false, stats dg⟩)
    (hc0 : (cl st.results).1 ≠ []) (hcl : ∀ cls ∈ (cl st.results).1, cls ≠ [])
    (hin : ∀ dg ∈ st.dgs, ∀ cls ∈ (cl st.results).1, ∀ i ∈ cls, i < (stats dg).length) :
    (st.classify as cl).2 = .ok () ∧
    (st.classify as cl).1.results = st.results ∧ (st.classify as cl).1.dgs = st.dgs ∧
    (st.classify as cl).1.classes = (cl st.results).1 ∧ (st.classify as cl).1.classesIdx = (cl st.results).2 ∧
    (∀ dg ∈ st.dgs, ∃ p, probs (bestStats (stats dg) (cl st.results).1) = .ok p ∧
      (st.classify as cl).1.sortedclasses dg = some (sortedClasses (stats dg) (cl st.results).1) ∧
      (st.classify as cl).1.classprobs dg = some p ∧ (st.classify as cl).1.sortedclassprobs dg = some (as p)) ∧
    (∀ dg, dg ∉ st.dgs → (st.classify as cl).1.sortedclasses dg = none ∧ (st.classify as cl).1.classprobs dg = none ∧
      (st.classify as cl).1.sortedclassprobs dg = none) ∧
    (st.classify as cl).1.aics = st.aics ∧ (st.classify as cl).1.aicprobs = st.aicprobs ∧
    (st.classify as cl).1.sortedprobs = st.sortedprobs := by
  simp only [State.classify]
  generalize hcls : (cl st.results).1 = classes at *
  have hb0 : ∀ dg, bestStats (stats dg) classes ≠ [] := by
    intro dg e
    have := congrArg List.length e
    simp [bestStats, sortedClasses] at this
    exact hc0 this
  have hsort : ∀ dg ∈ st.dgs, sortedOf classes st.aics dg = .ok (sortedClasses (stats dg) classes) := by
    intro dg h
    simp only [sortedOf, if_neg hc0, look, hst dg h, sortedClasses]
    apply mapM_ok
    intro cls hcl'
    have : cls.all (fun c => decide (c < (stats dg).length)) = true := by
      rw [List.all_eq_true]
      intro i hi
      exact decide_eq_true (hin dg h cls hcl' i hi)
    simp only [sortOne, this, if_true, Bool.false_eq_true, if_false]
  have hbest : ∀ dg ∈ st.dgs, ∀ (f : List ℝ → Res (List ℝ)) (d : D → Option (List (List ℕ))),
      d dg = some (sortedClasses (stats dg) classes) → ofBest f st.aics d dg = f (bestStats (stats dg) classes) := by
    intro dg h f d hd
    have hm : (sortedClasses (stats dg) classes).mapM (bestOf (stats dg)) = .ok (bestStats (stats dg) classes) := by
      unfold bestStats
      apply mapM_ok
      intro l hl
      obtain ⟨cls, hcl', rfl⟩ := List.mem_map.1 hl
      obtain ⟨h1, -⟩ := sortClass_spec (stats dg) cls
      have hne : sortClass (stats dg) cls ≠ [] := by
        intro e; rw [e] at h1; exact hcl cls hcl' h1.symm.eq_nil
      have hlast := (getLastD_sortClass (stats dg) cls (hcl cls hcl')).1
      have hlt := hin dg h cls hcl' _ hlast
      simp only [bestOf, getLastD_eq _ 0 hne, nth, List.getElem?_eq_getElem hlt, List.getD_eq_getElem?_getD, Option.getD_some]
    cases hs : sortedClasses (stats dg) classes with
    | nil => simp [sortedClasses] at hs; exact absurd hs hc0
    | cons c cs =>
      rw [hs] at hm hd
      simp only [ofBest, look, hd, hst dg h, hm, Bool.false_eq_true, if_false]
  have hw : ∀ dg, ∃ w, weights (bestStats (stats dg) classes) = .ok w := by
    intro dg
    obtain ⟨w, _, hw, -⟩ := Evaluator.c13_weights _ (hb0 dg)
    exact ⟨w, by simp only [weights, hw]⟩
  choose W hW using hw
  have hp : ∀ dg, ∃ p, probs (bestStats (stats dg) classes) = .ok p := fun dg => probs_ok _ (hb0 dg)
  choose P hP using hp
  obtain ⟨q1, q2⟩ := fill_ok (sortedOf classes st.aics) (fun dg => sortedClasses (stats dg) classes) st.dgs (fun _ => none) hsort
  generalize hS : (fill (sortedOf classes st.aics) st.dgs (fun _ => none)).1 = S at q2
  obtain ⟨w1, -⟩ := fill_ok (ofBest weights st.aics S) W st.dgs (fun _ => none) (fun k hk => by
    rw [hbest k hk weights S (q2 k hk), hW])
  obtain ⟨p1, p2⟩ := fill_ok (ofBest probs st.aics S) P st.dgs (fun _ => none) (fun k hk => by
    rw [hbest k hk probs S (q2 k hk), hP])
  obtain ⟨s1, s2⟩ := fill_ok (argsortOf as (fill (ofBest probs st.aics S) st.dgs (fun _ => none)).1) (fun dg => as (P dg)) st.dgs
    (fun _ => none) (fun k hk => by simp only [argsortOf, look, p2 k hk])
  simp only [andThen, makesortedclasses, makeclassweights, makeclassprobs, makesortedclassprobs, q1, hS, w1, p1, s1]
  refine ⟨trivial, trivial, trivial, trivial, trivial, fun dg h => ⟨P dg, hP dg, q2 dg h, p2 dg h, s2 dg h⟩,
    fun dg h => ⟨?_, ?_, ?_⟩, ?_, ?_, ?_⟩
  · rw [← hS]; exact fill_not_mem _ _ _ _ h
  · exact fill_not_mem _ _ _ _ h
  · exact fill_not_mem _ _ _ _ h
  all_goals trivial

end Verif.Multimodel
