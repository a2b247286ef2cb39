import Verif.Cluster.Props
import Mathlib.Algebra.Order.Field.Basic
import Mathlib.Tactic.Ring
import Mathlib.Tactic.Linarith
import Mathlib.Tactic.NormNum
import Mathlib.Algebra.Order.Ring.Rat
import Mathlib.Data.List.InsertIdx

/-!
# Property C100: the clustering does not depend on the units of the data

## Specification
-/

set_option linter.unusedSectionVars false

namespace Verif.Cluster

/-- The calls that change an object. -/
inductive Cmd
  | next
  | reset
  | combine (groups : List (List ℕ))

section

variable {α : Type} [AddCommGroup α] [LinearOrder α]

/-- One call — dataclusters.py:177-229, 128-137, 343-396. -/
def exec (s : State α) : Cmd → Outcome × State α
  | .next => Cluster.next s
  | .reset => Cluster.reset s
  | .combine g => Cluster.combine s g

/-- A series of calls, each after the exceptions of the earlier ones have been caught: what each did, and the object at the end. -/
def history (s : State α) : List Cmd → List Outcome × State α
  | [] => ([], s)
  | c :: cs => ((exec s c).1 :: (history (exec s c).2 cs).1, (history (exec s c).2 cs).2)

end

variable {K : Type} [Field K] [LinearOrder K] [IsStrictOrderedRing K]

/-- The two objects show the same clusters of the same points. -/
structure SameClusters (s t : State K) : Prop where
  clusters : t.clusters = s.clusters
  lastcluster : t.lastcluster = s.lastcluster
  lastpoint : t.lastpoint = s.lastpoint
  status : t.status = s.status
  full : ∀ i, isFull t i = isFull s i
  cut : ∀ i, cut t i = cut s i
  adjacent : findAdjacent t = findAdjacent s

/-- An answer of `find_nearest_cluster` with the distance in the unit `a`. -/
def inUnit (a : K) (r : Except Outcome (Option (ℕ × K))) : Except Outcome (Option (ℕ × K)) :=
  match r with
  | .error e => .error e
  | .ok none => .ok none
  | .ok (some (c, d)) => .ok (some (c, a * d))

/-! ## Lemmas -/

/-- The object for the changed data. -/
def rescale (a b : K) (g : K → K) (s : State K) : State K :=
  { s with x := s.x.map (fun v => a * v + b), y := s.y.map g, res := a * s.res }

/-- All row ends and the points still to look at are indices of data points. -/
structure Within (n : ℕ) (s : State K) : Prop where
  rows : ∀ c ∈ s.clusters, c.1 < n ∧ c.2 < n
  order : ∀ i ∈ s.dataOrder, i < n
  len : s.x.length = n
  pos : 0 < n

variable {a b : K} {g : K → K} {n : ℕ} {s : State K}

theorem row_lt {cs : List (ℕ × ℕ)} (h : ∀ c ∈ cs, c.1 < n ∧ c.2 < n) (h0 : 0 < n) (i : ℕ) : (row cs i).1 < n ∧ (row cs i).2 < n := by
  unfold row
  rw [List.getD_eq_getElem?_getD]
  cases hc : cs[i]? with
  | none => exact ⟨h0, h0⟩
  | some c => exact h c (List.mem_of_getElem? hc)

theorem getD_map {x : List K} (hi : ∀ {i}, i < n → i < x.length) {i : ℕ} (h : i < n) :
    (x.map (fun v => a * v + b)).getD i 0 = a * x.getD i 0 + b := by
  have := hi h
  simp [List.getD_eq_getElem?_getD, List.getElem?_eq_getElem this]

theorem getD_sub {x : List K} (hl : x.length = n) {i j : ℕ} (hi : i < n) (hj : j < n) :
    (x.map (fun v => a * v + b)).getD i 0 - (x.map (fun v => a * v + b)).getD j 0 = a * (x.getD i 0 - x.getD j 0) := by
  rw [getD_map (n := n) (by intro i h; omega) hi, getD_map (n := n) (by intro i h; omega) hj]
  ring

theorem getD_lt {l : List ℕ} (h : ∀ i ∈ l, i < n) (h0 : 0 < n) (j : ℕ) : l.getD j 0 < n := by
  rw [List.getD_eq_getElem?_getD]
  cases hc : l[j]? with
  | none => exact h0
  | some c => exact h c (List.mem_of_getElem? hc)

theorem nearest_units (ha : 0 < a) {x : List K} (hl : x.length = n) {cs : List (ℕ × ℕ)} (h : ∀ c ∈ cs, c.1 < n ∧ c.2 < n) {i : ℕ} (hi : i < n) :
    nearest (x.map (fun v => a * v + b)) cs i = (nearest x cs i).map (fun r => (r.1, a * r.2)) := by
  have h0 : 0 < n := by omega
  have hs : ∀ j, j < n → (x.map (fun v => a * v + b)).getD i 0 - (x.map (fun v => a * v + b)).getD j 0 = a * (x.getD i 0 - x.getD j 0) :=
    fun j hj => getD_sub hl hi hj
  unfold nearest
  simp only
  by_cases h1 : (flat cs).length = 0
  · rw [if_pos h1, if_pos h1]; rfl
  rw [if_neg h1, if_neg h1, hs _ (row_lt h h0 _).2, hs _ (row_lt h h0 _).1, hs _ (row_lt h h0 _).2, hs _ (row_lt h h0 _).1]
  by_cases h2 : searchsorted (flat cs) i = (flat cs).length
  · rw [if_pos h2, if_pos h2]; rfl
  rw [if_neg h2, if_neg h2]
  by_cases h3 : (flat cs).getD (searchsorted (flat cs) i) 0 = i ∨ searchsorted (flat cs) i % 2 = 1
  · rw [if_pos h3, if_pos h3]; simp
  rw [if_neg h3, if_neg h3]
  by_cases h4 : searchsorted (flat cs) i = 0
  · rw [if_pos h4, if_pos h4]; rfl
  rw [if_neg h4, if_neg h4, abs_mul, abs_of_pos ha]
  simp only [mul_lt_mul_iff_right₀ ha]
  split <;> rfl

theorem scan_units (ha : 0 < a) {x : List K} (hl : x.length = n) {cs : List (ℕ × ℕ)} (h : ∀ c ∈ cs, c.1 < n ∧ c.2 < n) {order : List ℕ}
    (ho : ∀ i ∈ order, i < n) (h0 : 0 < n) (cur : ℕ) (near : ℕ × K) (t : ℕ) :
    scan (x.map (fun v => a * v + b)) cs order cur (near.1, a * near.2) t =
      (scan x cs order cur near t).map (fun r => (r.1, (r.2.1.1, a * r.2.1.2), r.2.2)) := by
  induction cur generalizing near t with
  | zero => rfl
  | succ cur ih =>
    unfold scan
    by_cases hz : near.2 = 0
    · rw [if_pos hz, if_pos (by show a * near.2 = 0; rw [hz, mul_zero]), nearest_units ha hl h (getD_lt ho h0 _)]
      cases hn : nearest x cs (order.getD cur 0) with
      | none => rfl
      | some r => exact ih r _
    · rw [if_neg hz, if_neg (by show ¬ a * near.2 = 0; exact mul_ne_zero ha.ne' hz)]
      rfl

theorem place_units (ha : 0 < a) (res : K) (cs : List (ℕ × ℕ)) (near : ℕ × K) (t : ℕ) :
    place (a * res) cs (near.1, a * near.2) t = place res cs near t := by
  unfold place
  simp only [abs_mul, abs_of_pos ha, mul_le_mul_iff_right₀ ha]
  have : a * near.2 < 0 ↔ near.2 < 0 := by
    constructor
    · intro h; by_contra hn; exact absurd h (not_lt.2 (mul_nonneg ha.le (not_lt.1 hn)))
    · intro h; exact mul_neg_of_pos_of_neg ha h
  simp only [this]

def halted (s : State K) (cur : ℕ) : State K := { s with currentIdx := cur, status := (if cur ≤ 0 then .done else .clustering) }

def stepped (s : State K) (cur t : ℕ) (p : List (ℕ × ℕ) × ℕ) : State K :=
  { s with currentIdx := cur, status := (if cur ≤ 0 then .done else .clustering), lastpoint := some t, clusters := p.1, lastcluster := some p.2 }

theorem next_units (ha : 0 < a) (h : Within n s) :
    Cluster.next (rescale a b g s) = ((Cluster.next s).1, rescale a b g (Cluster.next s).2) := by
  have hsc := scan_units (b := b) ha h.len h.rows h.order h.pos s.currentIdx (0, 0) 0
  simp only [mul_zero] at hsc
  have hgo : ∀ st : Status, st ≠ .init → st ≠ .done → s.status = st →
      Cluster.next (rescale a b g s) = ((Cluster.next s).1, rescale a b g (Cluster.next s).2) := by
    intro st h1 h2 hst
    unfold Cluster.next
    have hst' : (rescale a b g s).status = st := hst
    have e1 : (rescale a b g s).x = s.x.map (fun v => a * v + b) := rfl
    have e2 : (rescale a b g s).clusters = s.clusters := rfl
    have e3 : (rescale a b g s).dataOrder = s.dataOrder := rfl
    have e4 : (rescale a b g s).currentIdx = s.currentIdx := rfl
    have e5 : (rescale a b g s).res = a * s.res := rfl
    rw [hst, hst', e1, e2, e3, e4, e5, hsc]
    cases hc : scan s.x s.clusters s.dataOrder s.currentIdx (0, 0) 0 with
    | error e => cases st <;> first | rfl | exact absurd rfl h1 | exact absurd rfl h2
    | ok r =>
      obtain ⟨cur, near, t⟩ := r
      have hz : a * near.2 = 0 ↔ near.2 = 0 := by simp [ha.ne']
      have hp := place_units ha s.res s.clusters near t
      have hmain : (if cur ≤ 0 ∧ a * near.2 = 0 then ((.stopIteration, halted (rescale a b g s) cur) : Outcome × State K)
          else (.ok, stepped (rescale a b g s) cur t (place (a * s.res) s.clusters (near.1, a * near.2) t))) =
        ((if cur ≤ 0 ∧ near.2 = 0 then ((.stopIteration, halted s cur) : Outcome × State K)
            else (.ok, stepped s cur t (place s.res s.clusters near t))).1,
         rescale a b g (if cur ≤ 0 ∧ near.2 = 0 then ((.stopIteration, halted s cur) : Outcome × State K)
            else (.ok, stepped s cur t (place s.res s.clusters near t))).2) := by
        rw [hp]
        by_cases hd : cur ≤ 0 ∧ near.2 = 0
        · rw [if_pos hd, if_pos ⟨hd.1, hz.2 hd.2⟩]; rfl
        · rw [if_neg hd, if_neg (fun h => hd ⟨h.1, hz.1 h.2⟩)]; rfl
      cases st <;> first | exact hmain | exact absurd rfl h1 | exact absurd rfl h2
  cases hst : s.status with
  | init =>
    unfold Cluster.next
    have hst' : (rescale a b g s).status = .init := hst
    rw [hst, hst']
  | done =>
    unfold Cluster.next
    have hst' : (rescale a b g s).status = .done := hst
    rw [hst, hst']
  | ready => exact hgo .ready (by simp) (by simp) hst
  | clustering => exact hgo .clustering (by simp) (by simp) hst

theorem reset_units : Cluster.reset (rescale a b g s) = ((Cluster.reset s).1, rescale a b g (Cluster.reset s).2) := by
  unfold Cluster.reset
  by_cases h : s.dataOrder.length = 0
  · rw [if_pos h, if_pos (show (rescale a b g s).dataOrder.length = 0 from h)]
  · rw [if_neg h, if_neg (show ¬ (rescale a b g s).dataOrder.length = 0 from h)]; rfl

theorem combine_units (gs : List (List ℕ)) :
    Cluster.combine (rescale a b g s) gs = ((Cluster.combine s gs).1, rescale a b g (Cluster.combine s gs).2) := by
  unfold Cluster.combine
  by_cases h1 : rectangular gs = false
  · rw [if_pos h1, if_pos h1]
  rw [if_neg h1, if_neg h1]
  by_cases h2 : ¬ gs.flatten.Nodup
  · rw [if_pos h2, if_pos h2]
  rw [if_neg h2, if_neg h2]
  have e : (rescale a b g s).clusters = s.clusters := rfl
  rw [e]
  cases hc : combineLoop s.clusters gs with
  | mk o cs =>
    cases o <;> try rfl
    by_cases h3 : ((gs.map List.tail).flatten.any (fun i => decide (cs.length ≤ i))) = true
    · simp only [if_pos h3]; rfl
    · simp only [if_neg h3]; rfl

theorem exec_units (ha : 0 < a) (h : Within n s) (c : Cmd) : exec (rescale a b g s) c = ((exec s c).1, rescale a b g (exec s c).2) := by
  cases c with
  | next => exact next_units ha h
  | reset => exact reset_units
  | combine gs => exact combine_units gs

theorem scan_lt {x : List K} {cs : List (ℕ × ℕ)} {order : List ℕ} (ho : ∀ i ∈ order, i < n) (h0 : 0 < n) :
    ∀ (cur : ℕ) (near : ℕ × K) (t : ℕ) (r : ℕ × (ℕ × K) × ℕ), t < n → scan x cs order cur near t = .ok r → r.2.2 < n := by
  intro cur
  induction cur with
  | zero => intro near t r ht h; simp only [scan, Except.ok.injEq] at h; rw [← h]; exact ht
  | succ cur ih =>
    intro near t r ht h
    unfold scan at h
    split at h
    · split at h
      · simp at h
      · exact ih _ _ _ (getD_lt ho h0 _) h
    · simp only [Except.ok.injEq] at h; rw [← h]; exact ht

theorem place_lt (res : K) {cs : List (ℕ × ℕ)} (h : ∀ c ∈ cs, c.1 < n ∧ c.2 < n) (near : ℕ × K) {t : ℕ} (ht : t < n) (h0 : 0 < n) :
    ∀ c ∈ (place res cs near t).1, c.1 < n ∧ c.2 < n := by
  intro c hc
  have hrow := row_lt h h0 near.1
  unfold place at hc
  split at hc
  · split at hc
    · rcases List.mem_or_eq_of_mem_set hc with h' | h'
      · exact h c h'
      · rw [h']; exact ⟨ht, hrow.2⟩
    · rcases List.mem_or_eq_of_mem_set hc with h' | h'
      · exact h c h'
      · rw [h']; exact ⟨hrow.1, ht⟩
  · rcases List.eq_or_mem_of_mem_insertIdx hc with h' | h'
    · rw [h']; exact ⟨ht, ht⟩
    · exact h c h'

theorem next_within (h : Within n s) : Within n (Cluster.next s).2 := by
  unfold Cluster.next
  split
  · exact h
  · exact h
  · split
    · exact ⟨h.rows, h.order, h.len, h.pos⟩
    · rename_i cur near t hsc
      simp only
      split
      · exact ⟨h.rows, h.order, h.len, h.pos⟩
      · have ht : t < n := scan_lt h.order h.pos _ _ _ _ h.pos hsc
        exact ⟨place_lt s.res h.rows near ht h.pos, h.order, h.len, h.pos⟩

theorem combineLoop_lt (h0 : 0 < n) : ∀ (gs : List (List ℕ)) (cs : List (ℕ × ℕ)), (∀ c ∈ cs, c.1 < n ∧ c.2 < n) →
    ∀ c ∈ (combineLoop cs gs).2, c.1 < n ∧ c.2 < n := by
  intro gs
  induction gs with
  | nil => intro cs h; exact h
  | cons d gs ih =>
    intro cs h
    unfold combineLoop
    split
    · exact h
    · rename_i first rest
      simp only
      split
      · split
        · exact h
        · refine ih _ ?_
          intro c hc
          rcases List.mem_or_eq_of_mem_set hc with h' | h'
          · exact h c h'
          · rw [h']; exact ⟨(row_lt h h0 _).1, (row_lt h h0 _).2⟩
      · exact h

theorem deleteRows_sub (td : List ℕ) : ∀ (cs : List (ℕ × ℕ)) (i : ℕ), ∀ c ∈ deleteRows td i cs, c ∈ cs := by
  intro cs
  induction cs with
  | nil => intro i c hc; exact hc
  | cons d cs ih =>
    intro i c hc
    unfold deleteRows at hc
    split at hc
    · exact List.mem_cons_of_mem _ (ih _ c hc)
    · rcases List.mem_cons.1 hc with rfl | hc
      · exact List.mem_cons_self
      · exact List.mem_cons_of_mem _ (ih _ c hc)

theorem combine_within (h : Within n s) (gs : List (List ℕ)) : Within n (Cluster.combine s gs).2 := by
  have hl := combineLoop_lt h.pos gs s.clusters h.rows
  unfold Cluster.combine
  split
  · exact h
  · split
    · exact h
    · split
      · rename_i cs hc
        rw [hc] at hl
        simp only
        split
        · exact ⟨hl, h.order, h.len, h.pos⟩
        · exact ⟨fun c hc => hl c (deleteRows_sub _ _ _ c hc), h.order, h.len, h.pos⟩
      · rename_i cs _ hc
        rw [hc] at hl
        exact ⟨hl, h.order, h.len, h.pos⟩

theorem reset_within (h : Within n s) : Within n (Cluster.reset s).2 := by
  unfold Cluster.reset
  split
  · exact h
  · refine ⟨?_, h.order, h.len, h.pos⟩
    intro c hc
    simp only [List.mem_singleton] at hc
    rw [hc]
    exact ⟨getD_lt h.order h.pos _, getD_lt h.order h.pos _⟩

theorem exec_within (h : Within n s) (c : Cmd) : Within n (exec s c).2 := by
  cases c with
  | next => exact next_within h
  | reset => exact reset_within h
  | combine gs => exact combine_within h gs

theorem history_units (ha : 0 < a) (cs : List Cmd) : ∀ {s : State K}, Within n s →
    history (rescale a b g s) cs = ((history s cs).1, rescale a b g (history s cs).2) ∧ Within n (history s cs).2 := by
  induction cs with
  | nil => intro s h; exact ⟨rfl, h⟩
  | cons c cs ih =>
    intro s h
    obtain ⟨e, hw⟩ := ih (exec_within h c)
    refine ⟨?_, hw⟩
    show ((exec (rescale a b g s) c).1 :: (history (exec (rescale a b g s) c).2 cs).1, (history (exec (rescale a b g s) c).2 cs).2) = _
    rw [exec_units ha h c]
    simp only
    rw [e]
    rfl

theorem rescale_same (a b : K) (g : K → K) (s : State K) : SameClusters s (rescale a b g s) :=
  ⟨rfl, rfl, rfl, rfl, fun _ => rfl, fun _ => rfl, rfl⟩

theorem findNearest_units (ha : 0 < a) (h : Within n s) {i : ℕ} (hi : i < n) :
    findNearest (rescale a b g s) i = inUnit a (findNearest s i) := by
  unfold findNearest
  by_cases h1 : s.status = .init
  · rw [if_pos h1, if_pos (show (rescale a b g s).status = .init from h1)]; rfl
  · rw [if_neg h1, if_neg (show ¬ (rescale a b g s).status = .init from h1)]
    show Except.ok (nearest (s.x.map (fun v => a * v + b)) s.clusters i) = _
    rw [nearest_units ha h.len h.rows hi]
    cases nearest s.x s.clusters i with
    | none => rfl
    | some r => rfl

theorem searchsorted_units (ha : 0 < a) (x : List K) (v : K) :
    searchsorted (x.map (fun v => a * v + b)) (a * v + b) = searchsorted x v := by
  unfold searchsorted
  rw [List.takeWhile_map, List.length_map]
  congr 2
  funext w
  have : a * w + b < a * v + b ↔ w < v := by rw [add_lt_add_iff_right, mul_lt_mul_iff_right₀ ha]
  simp [this]

theorem findNearest2_units (ha : 0 < a) (h : Within n s) (v : K) :
    findNearest2 (rescale a b g s) (a * v + b) = inUnit a (findNearest2 s v) := by
  unfold findNearest2
  by_cases h1 : s.status = .init
  · rw [if_pos h1, if_pos (show (rescale a b g s).status = .init from h1)]; rfl
  rw [if_neg h1, if_neg (show ¬ (rescale a b g s).status = .init from h1)]
  have e1 : (rescale a b g s).x = s.x.map (fun v => a * v + b) := rfl
  have e2 : (rescale a b g s).clusters = s.clusters := rfl
  have hn := h.len
  have hp := h.pos
  simp only [e1, e2, searchsorted_units ha, List.length_map]
  by_cases h2 : searchsorted s.x v > 0 ∨ searchsorted s.x v ≥ s.x.length
  · rw [if_pos h2, if_pos h2]
    by_cases h3 : searchsorted s.x v ≥ s.x.length
    · rw [if_pos h3, if_pos h3]
      split <;> rfl
    · rw [if_neg h3, if_neg h3]
      exact findNearest_units ha h (by omega)
  rw [if_neg h2, if_neg h2]
  have hx0 := getD_map (a := a) (b := b) (n := n) (x := s.x) (by intro i h; omega) hp
  have hxl := getD_map (a := a) (b := b) (n := n) (x := s.x) (by intro i h; omega) (i := s.x.length - 1) (by omega)
  have hxr := getD_map (a := a) (b := b) (n := n) (x := s.x) (by intro i h; omega) (row_lt h.rows hp 0).1
  rw [hx0, hxl, hxr]
  have hc : a * s.x.getD 0 0 + b - (a * v + b) < a * v + b - (a * s.x.getD (s.x.length - 1) 0 + b) ↔
      s.x.getD 0 0 - v < v - s.x.getD (s.x.length - 1) 0 := by
    have l1 : a * s.x.getD 0 0 + b - (a * v + b) = a * (s.x.getD 0 0 - v) := by ring
    have l2 : a * v + b - (a * s.x.getD (s.x.length - 1) 0 + b) = a * (v - s.x.getD (s.x.length - 1) 0) := by ring
    rw [l1, l2, mul_lt_mul_iff_right₀ ha]
  simp only [hc]
  by_cases h4 : s.x.getD 0 0 - v < v - s.x.getD (s.x.length - 1) 0
  · rw [if_pos h4, if_pos h4]
    exact findNearest_units ha h hp
  · rw [if_neg h4, if_neg h4]
    by_cases h5 : s.clusters.length = 0
    · rw [if_pos h5, if_pos h5]; rfl
    · rw [if_neg h5, if_neg h5]
      show _ = Except.ok (some (0, a * (s.x.getD (s.x.length - 1) 0 - s.x.getD (row s.clusters 0).1 0)))
      congr 3
      ring

theorem mk_units (ha : 0 < a) (x y : List K) (res : K) (order : List ℕ) :
    mk (x.map (fun v => a * v + b)) (y.map g) (a * res) order = (mk x y res order).map (rescale a b g) := by
  unfold mk
  have hr : a * res < 0 ↔ res < 0 := by
    constructor
    · intro h; by_contra hn; exact absurd h (not_lt.2 (mul_nonneg ha.le (not_lt.1 hn)))
    · intro h; exact mul_neg_of_pos_of_neg ha h
  simp only [List.length_map, hr]
  by_cases h1 : x.length ≠ y.length
  · rw [if_pos h1, if_pos h1]; rfl
  rw [if_neg h1, if_neg h1]
  by_cases h2 : res < 0
  · rw [if_pos h2, if_pos h2]; rfl
  rw [if_neg h2, if_neg h2]
  by_cases h3 : x.length = 0
  · rw [if_pos h3, if_pos h3]; rfl
  rw [if_neg h3, if_neg h3]; rfl

theorem argsort_units {y : List K} {order : List ℕ} (hg : StrictMono g) (ho : IsArgsort y order) : IsArgsort (y.map g) order := by
  refine ⟨by simpa using ho.1, ?_⟩
  have hin : ∀ i ∈ order, i < y.length := fun i hi => List.mem_range.1 (ho.1.mem_iff.1 hi)
  refine List.Pairwise.imp_of_mem ?_ ho.2
  intro i j hi hj h
  have h1 := hin i hi
  have h2 := hin j hj
  simp only [List.getD_eq_getElem?_getD, List.getElem?_map, List.getElem?_eq_getElem h1, List.getElem?_eq_getElem h2,
    Option.map_some, Option.getD_some] at h ⊢
  exact hg.monotone h

theorem mk_within {x y : List K} {res : K} {order : List ℕ} (ho : IsArgsort y order) (hx : x ≠ []) (h : mk x y res order = .ok s) :
    Within x.length s := by
  have hp : 0 < x.length := List.length_pos_iff.2 hx
  unfold mk at h
  split at h
  · simp at h
  · rename_i hxy
    split at h
    · simp at h
    · rw [if_neg (by omega)] at h
      simp only [Except.ok.injEq] at h
      have hin : ∀ i ∈ order, i < x.length := by
        intro i hi
        have := List.mem_range.1 (ho.1.mem_iff.1 hi)
        omega
      subst h
      refine ⟨?_, hin, rfl, hp⟩
      intro c hc
      simp only [List.mem_singleton] at hc
      rw [hc]
      exact ⟨getD_lt hin hp _, getD_lt hin hp _⟩

/-! ## Theorems -/

/-- **C100.** Other units and origin of the coordinates, with the resolution in the same unit, and any other strictly increasing scale of the
values: `argsort` may give the same order, the constructor raises or not alike, and after the same calls — whatever they are, and whatever
they raised — the clusters are the same, and the nearest cluster to a data point or a coordinate is the same at the
distance in the new unit. -/
theorem c100_units (ha : 0 < a) (hg : StrictMono g) {x y : List K} {res : K} {order : List ℕ} (ho : IsArgsort y order) (hx : x ≠ []) :
    IsArgsort (y.map g) order ∧
    (∀ e, mk x y res order = .error e ↔ mk (x.map (fun v => a * v + b)) (y.map g) (a * res) order = .error e) ∧
    ∀ s s', mk x y res order = .ok s → mk (x.map (fun v => a * v + b)) (y.map g) (a * res) order = .ok s' → ∀ calls,
      (history s' calls).1 = (history s calls).1 ∧ SameClusters (history s calls).2 (history s' calls).2 ∧
      (∀ i < x.length, findNearest (history s' calls).2 i = inUnit a (findNearest (history s calls).2 i)) ∧
      ∀ v, findNearest2 (history s' calls).2 (a * v + b) = inUnit a (findNearest2 (history s calls).2 v) := by
  have hm := mk_units (b := b) (g := g) ha x y res order
  refine ⟨argsort_units hg ho, ?_, ?_⟩
  · intro e
    rw [hm]
    cases mk x y res order with
    | error e' => simp [Except.map]
    | ok r => simp [Except.map]
  · intro s s' hs hs' calls
    rw [hm, hs] at hs'
    simp only [Except.map, Except.ok.injEq] at hs'
    subst hs'
    obtain ⟨e, hw⟩ := history_units (b := b) (g := g) ha calls (mk_within ho hx hs)
    rw [e]
    exact ⟨rfl, rescale_same _ _ _ _, fun i hi => findNearest_units ha hw hi, fun v => findNearest2_units ha hw v⟩

/-- **C100.** With distinct values there is only one order, so the clusters are those of the other units whatever `argsort` does with ties. -/
theorem c100_order (hg : StrictMono g) {y : List K} {order order' : List ℕ} (hy : y.Nodup) (ho : IsArgsort y order) (ho' : IsArgsort (y.map g) order') :
    order' = order := by
  have h1 : IsArgsort (y.map g) order := argsort_units hg ho
  have hy' : (y.map g).Nodup := hy.map hg.injective
  have hin : ∀ i ∈ order, i < (y.map g).length := fun i hi => List.mem_range.1 (h1.1.mem_iff.1 hi)
  have hp : order'.Perm order := ho'.1.trans h1.1.symm
  refine hp.eq_of_pairwise (le := fun i j => (y.map g).getD i 0 ≤ (y.map g).getD j 0) ?_ ho'.2 h1.2
  intro i j hi hj hij hji
  have h2 := hin i (hp.mem_iff.1 hi)
  have h3 := hin j hj
  have he := le_antisymm hij hji
  rw [List.getD_eq_getElem?_getD, List.getD_eq_getElem?_getD, List.getElem?_eq_getElem h2, List.getElem?_eq_getElem h3] at he
  exact (hy'.getElem_inj_iff).1 he

/-! ## Instances -/

/-- Ångström to picometres from another origin, values doubled: the same two clusters after three calls, one of which raises. -/
example : ∃ s s' : State ℚ, mk [0, 1, 2, 4, 5] [1, 3, 2, 5, 4] 1 [0, 2, 1, 4, 3] = .ok s ∧
    mk [7, 107, 207, 407, 507] [2, 6, 4, 10, 8] 100 [0, 2, 1, 4, 3] = .ok s' ∧
    (history s [.next, .combine [[0, 5]], .next]).1 = [.ok, .valueError, .ok] ∧
    (history s [.next, .combine [[0, 5]], .next]).2.clusters = [(1, 1), (3, 4)] ∧
    (history s' [.next, .combine [[0, 5]], .next]).1 = [.ok, .valueError, .ok] ∧
    (history s' [.next, .combine [[0, 5]], .next]).2.clusters = [(1, 1), (3, 4)] := by
  have ho : IsArgsort ([1, 3, 2, 5, 4] : List ℚ) [0, 2, 1, 4, 3] := by
    unfold IsArgsort
    constructor <;> decide +kernel
  have hg : StrictMono (fun v : ℚ => 2 * v) := fun u v h => by show 2 * u < 2 * v; linarith
  obtain ⟨-, -, h⟩ := c100_units (a := 100) (b := 7) (x := [0, 1, 2, 4, 5]) (res := 1) (by norm_num) hg ho (by simp)
  have e1 : ([0, 1, 2, 4, 5] : List ℚ).map (fun v => 100 * v + 7) = [7, 107, 207, 407, 507] := by norm_num
  have e2 : ([1, 3, 2, 5, 4] : List ℚ).map (fun v => 2 * v) = [2, 6, 4, 10, 8] := by norm_num
  rw [e1, e2, mul_one] at h
  obtain ⟨h1, h2, -⟩ := h _ _ rfl rfl [.next, .combine [[0, 5]], .next]
  have k1 : (history (⟨[0, 1, 2, 4, 5], [1, 3, 2, 5, 4], 1, [0, 2, 1, 4, 3], [(3, 3)], 4, none, some 3, .ready⟩ : State ℚ)
    [.next, .combine [[0, 5]], .next]).1 = [.ok, .valueError, .ok] := by decide +kernel
  have k2 : (history (⟨[0, 1, 2, 4, 5], [1, 3, 2, 5, 4], 1, [0, 2, 1, 4, 3], [(3, 3)], 4, none, some 3, .ready⟩ : State ℚ)
    [.next, .combine [[0, 5]], .next]).2.clusters = [(1, 1), (3, 4)] := by decide +kernel
  refine ⟨_, _, rfl, rfl, k1, k2, h1.trans k1, h2.clusters.trans k2⟩

example := c100_order (K := ℚ) (g := fun v => 2 * v) (y := [1, 3, 2]) (order := [0, 2, 1]) (order' := [0, 2, 1])
  (fun u v h => by show 2 * u < 2 * v; linarith) (by decide +kernel) (by unfold IsArgsort; constructor <;> decide +kernel)
  (by unfold IsArgsort; constructor <;> decide +kernel)

end Verif.Cluster
