import Verif.Units.Basic
import Verif.Cluster.Units

/-! # Lemmas for C104: the clustering (as C100, for any state) -/

set_option linter.unusedSectionVars false

namespace Verif.Parts.Units

open Verif.Cluster (State nearest scan place row flat searchsorted Status)

variable {K : Type} [Field K] [LinearOrder K] [IsStrictOrderedRing K]

/-- The clustering object in the new units. -/
def Change.state (u : Change K) (s : State K) : State K := { s with x := u.xs s.x, y := u.ys s.y, res := u.a * s.res }

variable {u : Change K}

theorem getD_xs (x : List K) (i : ℕ) : (u.xs x).getD i 0 = u.a * x.getD i 0 := by
  simp only [Change.xs, List.getD_eq_getElem?_getD, List.getElem?_map]
  cases x[i]? <;> simp

theorem nearest_xs (ha : 0 < u.a) (x : List K) (cs : List (ℕ × ℕ)) (i : ℕ) :
    nearest (u.xs x) cs i = (nearest x cs i).map (fun r => (r.1, u.a * r.2)) := by
  unfold nearest
  simp only [getD_xs, ← mul_sub]
  by_cases h1 : (flat cs).length = 0
  · rw [if_pos h1, if_pos h1]; rfl
  rw [if_neg h1, if_neg h1]
  by_cases h2 : searchsorted (flat cs) i = (flat cs).length
  · rw [if_pos h2, if_pos h2]; rfl
  rw [if_neg h2, if_neg h2]
  by_cases h3 : (flat cs).getD (searchsorted (flat cs) i) 0 = i ∨ searchsorted (flat cs) i % 2 = 1
  · rw [if_pos h3, if_pos h3]; simp
  rw [if_neg h3, if_neg h3]
  by_cases h4 : searchsorted (flat cs) i = 0
  · rw [if_pos h4, if_pos h4]; rfl
  rw [if_neg h4, if_neg h4, abs_mul, abs_of_pos ha]
  simp only [mul_lt_mul_iff_right₀ ha]
  split <;> rfl

theorem scan_xs (ha : 0 < u.a) (x : List K) (cs : List (ℕ × ℕ)) (order : List ℕ) (cur : ℕ) (near : ℕ × K) (t : ℕ) :
    scan (u.xs x) cs order cur (near.1, u.a * near.2) t =
      (scan x cs order cur near t).map (fun r => (r.1, (r.2.1.1, u.a * r.2.1.2), r.2.2)) := by
  induction cur generalizing near t with
  | zero => rfl
  | succ cur ih =>
    unfold scan
    by_cases hz : near.2 = 0
    · rw [if_pos hz, if_pos (by show u.a * near.2 = 0; rw [hz, mul_zero]), nearest_xs ha]
      cases hn : nearest x cs (order.getD cur 0) with
      | none => rfl
      | some r => exact ih r _
    · rw [if_neg hz, if_neg (by show ¬ u.a * near.2 = 0; exact mul_ne_zero ha.ne' hz)]
      rfl

theorem next_state (ha : 0 < u.a) (s : State K) :
    Cluster.next (u.state s) = ((Cluster.next s).1, u.state (Cluster.next s).2) := by
  have hsc := scan_xs ha s.x s.clusters s.dataOrder s.currentIdx (0, 0) 0
  simp only [mul_zero] at hsc
  unfold Cluster.next
  have e0 : (u.state s).status = s.status := rfl
  have e1 : (u.state s).x = u.xs s.x := rfl
  have e2 : (u.state s).clusters = s.clusters := rfl
  have e3 : (u.state s).dataOrder = s.dataOrder := rfl
  have e4 : (u.state s).currentIdx = s.currentIdx := rfl
  have e5 : (u.state s).res = u.a * s.res := rfl
  rw [e0, e1, e2, e3, e4, e5, hsc]
  have key : ∀ r : Except Cluster.Outcome (ℕ × (ℕ × K) × ℕ),
      (match r.map (fun r => (r.1, (r.2.1.1, u.a * r.2.1.2), r.2.2)) with
      | .error e => (e, { u.state s with status := .clustering })
      | .ok (cur, near, t) =>
        let st : Status := if cur ≤ 0 then .done else .clustering
        if cur ≤ 0 ∧ near.2 = 0 then (Cluster.Outcome.stopIteration, { u.state s with currentIdx := cur, status := st })
        else
          let p := place (u.a * s.res) s.clusters near t
          (.ok, { u.state s with currentIdx := cur, status := st, lastpoint := some t, clusters := p.1, lastcluster := some p.2 })) =
      (fun (q : Cluster.Outcome × State K) => (q.1, u.state q.2)) (match r with
      | .error e => (e, { s with status := .clustering })
      | .ok (cur, near, t) =>
        let st : Status := if cur ≤ 0 then .done else .clustering
        if cur ≤ 0 ∧ near.2 = 0 then (Cluster.Outcome.stopIteration, { s with currentIdx := cur, status := st })
        else
          let p := place s.res s.clusters near t
          (.ok, { s with currentIdx := cur, status := st, lastpoint := some t, clusters := p.1, lastcluster := some p.2 })) := by
    intro r
    cases r with
    | error e => rfl
    | ok r =>
      obtain ⟨cur, near, t⟩ := r
      have hz : u.a * near.2 = 0 ↔ near.2 = 0 := by simp [ha.ne']
      simp only [Except.map, Cluster.place_units ha, hz]
      split <;> rfl
  cases hst : s.status with
  | init => rfl
  | done => rfl
  | ready => exact key _
  | clustering => exact key _

theorem combine_state (s : State K) (gs : List (List ℕ)) :
    Cluster.combine (u.state s) gs = ((Cluster.combine s gs).1, u.state (Cluster.combine s gs).2) := by
  unfold Cluster.combine
  have e : (u.state s).clusters = s.clusters := rfl
  rw [e]
  split
  · rfl
  · split
    · rfl
    · cases hc : Cluster.combineLoop s.clusters gs with
      | mk o cs =>
        cases o <;> try rfl
        simp only
        split <;> rfl

theorem findAdjacent_state (s : State K) : Cluster.findAdjacent (u.state s) = Cluster.findAdjacent s := rfl

theorem cut_state (s : State K) (i : ℕ) : Cluster.cut (u.state s) i = Cluster.cut s i := rfl

theorem mk_state (hu : u.Sensible) (x y : List K) (res : K) (order : List ℕ) :
    Cluster.mk (u.xs x) (u.ys y) (u.a * res) order = (Cluster.mk x y res order).map u.state := by
  unfold Cluster.mk
  have h1 : (u.xs x).length = x.length := by simp [Change.xs]
  have h2 : (u.ys y).length = y.length := by simp [Change.ys]
  have h3 : u.a * res < 0 ↔ res < 0 := by
    constructor
    · intro h; by_contra hn; exact absurd h (not_lt.2 (mul_nonneg hu.a.le (not_lt.1 hn)))
    · intro h; exact mul_neg_of_pos_of_neg hu.a h
  rw [h1, h2]
  simp only [h3]
  split
  · rfl
  split
  · rfl
  split <;> rfl

end Verif.Parts.Units
