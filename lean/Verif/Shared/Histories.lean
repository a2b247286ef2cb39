import Verif.Shared.Steps
import Verif.ModelCluster.Props

/-!
# Lemmas for C112: new clusters, invariants
-/

set_option linter.unusedSectionVars false

namespace Verif.Parts.Shared

open Verif.Py Verif.PeakList Verif.Parts.ModelCluster Verif.Parts.Extract

variable {K : Type} [Field K] [LinearOrder K]

/-- `never_fit` is right: a cluster that is never fitted has no point above baseline and uncertainty. -/
def Right (W : World K) (c : Cluster K) : Prop :=
  ∀ s, c.slice = some s → c.neverFit = true → AllBelow (excess W c) (s.start.getD 0) s.stop

theorem excess_congr (W : World K) {c d : Cluster K} (h1 : d.r = c.r) (h2 : d.y = c.y) (h3 : d.err = c.err) (h4 : d.baseline = c.baseline) :
    excess W d = excess W c := by unfold excess; rw [h1, h2, h3, h4]

theorem updateNever_right {ex : List K} {never b : Bool} {old : Option Slice} {new : Slice}
    (h : updateNever ex never old new = .ok b)
    (ho : ∀ s, old = some s → never = true → AllBelow ex (s.start.getD 0) s.stop) :
    b = true → AllBelow ex (new.start.getD 0) new.stop := by
  intro hb
  subst hb
  unfold updateNever at h
  cases old with
  | none => exact (maxNeg_ok ex _ _ h).1 rfl
  | some s =>
    simp only at h
    cases never with
    | false => simp at h
    | true =>
      simp only [if_true] at h
      have hall := ho s rfl rfl
      obtain ⟨na, nb⟩ := new
      obtain ⟨sa, sb⟩ := s
      cases na with
      | none => simp at h
      | some a =>
        cases sa with
        | none => simp at h
        | some a' =>
          simp only [Option.getD_some] at h hall ⊢
          have hleft : ∃ l, (if a < a' then maxNeg (getSlice ex (some (a, a'))) else .ok true) = Except.ok l ∧
              (l = true → AllBelow ex a a') := by
            by_cases hlt : a < a'
            · rw [if_pos hlt] at h ⊢
              cases hm : maxNeg (getSlice ex (some (a, a'))) with
              | error e => rw [hm] at h; simp at h
              | ok l => exact ⟨l, rfl, (maxNeg_ok ex a a' hm).1⟩
            · rw [if_neg hlt]
              exact ⟨true, rfl, fun _ i v h1 h2 => by omega⟩
          obtain ⟨l, hl, hl'⟩ := hleft
          rw [hl] at h
          simp only at h
          cases l with
          | false => simp at h
          | true =>
            have hL := hl' rfl
            simp only [true_and] at h
            intro i v h1 h2 h3
            by_cases c1 : i < a'
            · exact hL i v h1 c1 h3
            by_cases c2 : i < sb
            · exact hall i v (by omega) c2 h3
            rw [if_pos (by omega)] at h
            exact (maxNeg_ok ex _ _ h).1 rfl i v (by omega) h2 h3

theorem sliced_right {W : World K} {c c' : Cluster K} {s : Slice} (h : sliced W c s = (.ok (), c')) (hr : Right W c) : Right W c' := by
  have hf := slice_frame W c s
  rw [h] at hf
  obtain ⟨h1, h2⟩ := hf
  simp only at h1 h2
  unfold sliced changeSlice at h
  cases hu : updateNever (excess W c) c.neverFit c.slice s with
  | error e => rw [hu] at h; simp at h
  | ok b =>
    rw [hu] at h
    simp only [Prod.mk.injEq, true_and] at h
    subst h
    intro t ht hn
    simp only [Option.some.injEq] at ht
    subst ht
    exact updateNever_right hu hr hn

theorem joinTail_cases {as : List K → List ℕ} {sc : Part K → K → K → Res (List K)}
    {val : Part K → K → K} {ex : List K} {m1 m2 l r c : Cluster K} {li ri : ℕ × ℕ} (h : joinTail as sc val ex m1 m2 l r li ri = .ok c) :
    ∃ model funcs s, changeSlice ex { m1 with model := model, slice := none, lastFit := 0, neverFit := false, funcs := funcs } s = (.ok (), c) := by
  unfold joinTail at h
  split at h
  · simp only at h
    split at h
    · simp at h
    · rename_i hc
      simp only [Except.ok.injEq] at h
      subst h
      exact ⟨_, _, _, hc⟩
  · simp at h

theorem join_cases {as : List K → List ℕ} {eqv : Option (Part K) → Option (Part K) → Bool} {sc : Part K → K → K → Res (List K)}
    {val : Part K → K → K} {ex : List K} {m1 m2 c : Cluster K} (h : joinAdjacent as eqv sc val ex m1 m2 = .ok c) :
    ∃ model funcs s, changeSlice ex { m1 with model := model, slice := none, lastFit := 0, neverFit := false, funcs := funcs } s = (.ok (), c) := by
  unfold joinAdjacent at h
  repeat' split at h
  all_goals first | (simp at h; done) | exact joinTail_cases h | skip
  all_goals
    simp only at h
    split at h
    · split at h
      · first | exact joinTail_cases h | (simp at h; done)
      · first | exact joinTail_cases h | (simp at h; done)
    · split at h
      · first | exact joinTail_cases h | (simp at h; done)
      · first | exact joinTail_cases h | (simp at h; done)

/-- What `join_adjacent` keeps of the first cluster. -/
theorem join_frame {W : World K} {m1 m2 c : Cluster K} (h : joinAdjacent W.as W.eqv W.sc W.val (excess W m1) m1 m2 = .ok c) :
    c.slice ≠ none ∧ Right W c := by
  obtain ⟨model, funcs, s, hc⟩ := join_cases h
  have hr : Right W { m1 with model := model, slice := none, lastFit := 0, neverFit := false, funcs := funcs } := by
    intro t ht; simp at ht
  have := sliced_right (W := W) (c := { m1 with model := model, slice := none, lastFit := 0, neverFit := false, funcs := funcs }) (s := s) hc hr
  refine ⟨?_, this⟩
  have h2 := (slice_frame W { m1 with model := model, slice := none, lastFit := 0, neverFit := false, funcs := funcs } s).2
  have h3 : sliced W { m1 with model := model, slice := none, lastFit := 0, neverFit := false, funcs := funcs } s = (.ok (), c) := hc
  rw [h3] at h2
  simp only at h2
  rw [h2]
  simp

end Verif.Parts.Shared
