import Verif.Plot3d.Model

/-! # C122: the plot of class probabilities -/

namespace Verif.Parts.Plot3d

open Verif.Py Verif.Multimodel

variable {R D : Type}

/-- At the uncertainty `d` class `i` has the probability `y`. -/
def ProbAt (st : State R D) (i : ℕ) (d : D) (y : ℝ) : Prop := ∃ p, st.classprobs d = some p ∧ p[i]? = some y

/-- The highest probability of class `i` over `dGs` is from `lo` to `hi`. -/
def MaxIn (st : State R D) (dGs : List D) (lo hi : ℝ) (i : ℕ) : Prop :=
  ∃ d ∈ dGs, ∃ y, ProbAt st i d y ∧ lo ≤ y ∧ y ≤ hi ∧ ∀ d' ∈ dGs, ∀ y', ProbAt st i d' y' → y' ≤ y

/-- `poly` is the closed polygon under the curve of the probabilities of class `i` over `xs`: from the foot of the first point along
the curve to the foot of the last point and back. -/
def Under (st : State R D) (dGs : List D) (xs : List ℝ) (i : ℕ) (poly : List (ℝ × ℝ)) : Prop :=
  ∃ ys a b, List.Forall₂ (ProbAt st i) dGs ys ∧ xs.head? = some a ∧ xs.getLast? = some b ∧
    poly = [(a, 0)] ++ List.zip xs ys ++ [(b, 0), (a, 0)]

theorem lookNth_probAt (st : State R D) {i : ℕ} {d : D} {y : ℝ} (h : lookNth st.classprobs d i = .ok y) : ProbAt st i d y := by
  unfold lookNth look at h
  cases hd : st.classprobs d with
  | none => rw [hd] at h; cases h
  | some p =>
    rw [hd] at h
    simp only [nth] at h
    cases hp : p[i]? with
    | none => rw [hp] at h; cases h
    | some v =>
      rw [hp] at h
      cases h
      exact ⟨p, hd, hp⟩

theorem column_ok (st : State R D) {i : ℕ} : ∀ {ds : List D} {ys : List ℝ}, column st i ds = .ok ys → List.Forall₂ (ProbAt st i) ds ys
  | [], ys, h => by cases h; exact .nil
  | d :: ds, ys, h => by
    unfold column at h
    split at h
    · cases h
    · rename_i y hy
      split at h
      · cases h
      · rename_i ys' hys
        cases h
        exact .cons (lookNth_probAt st hy) (column_ok st hys)

theorem probAt_unique {st : State R D} {i : ℕ} {d : D} {y y' : ℝ} (h : ProbAt st i d y) (h' : ProbAt st i d y') : y = y' := by
  obtain ⟨p, hp, hy⟩ := h
  obtain ⟨p', hp', hy'⟩ := h'
  rw [hp] at hp'
  cases hp'
  rw [hy] at hy'
  cases hy'
  rfl

theorem forall₂_right {A B : Type} {P : A → B → Prop} : ∀ {l : List A} {m : List B}, List.Forall₂ P l m → ∀ b ∈ m, ∃ a ∈ l, P a b
  | _, _, .nil, b, h => by cases h
  | _, _, .cons h t, b, hb => by
    rcases List.mem_cons.1 hb with rfl | hb
    · exact ⟨_, List.mem_cons_self, h⟩
    · obtain ⟨a, ha, hab⟩ := forall₂_right t b hb
      exact ⟨a, List.mem_cons_of_mem _ ha, hab⟩

theorem forall₂_left {A B : Type} {P : A → B → Prop} : ∀ {l : List A} {m : List B}, List.Forall₂ P l m → ∀ a ∈ l, ∃ b ∈ m, P a b
  | _, _, .nil, b, h => by cases h
  | _, _, .cons h t, b, hb => by
    rcases List.mem_cons.1 hb with rfl | hb
    · exact ⟨_, List.mem_cons_self, h⟩
    · obtain ⟨a, ha, hab⟩ := forall₂_left t b hb
      exact ⟨a, List.mem_cons_of_mem _ ha, hab⟩

theorem maxIn_iff {st : State R D} {dGs : List D} {lo hi m : ℝ} {i : ℕ} {ys : List ℝ} (hy : List.Forall₂ (ProbAt st i) dGs ys)
    (hm : ys.max? = some m) : (lo ≤ m ∧ m ≤ hi) ↔ MaxIn st dGs lo hi i := by
  have hmem := List.max?_mem hm
  have hle := (List.max?_le_iff hm (x := m)).1 (le_refl _)
  have top : ∀ d' ∈ dGs, ∀ y', ProbAt st i d' y' → y' ≤ m := fun d' hd' y' hy' => by
    obtain ⟨b, hb, hp⟩ := forall₂_left hy d' hd'
    rw [probAt_unique hy' hp]
    exact hle b hb
  obtain ⟨d, hd, hp⟩ := forall₂_right hy m hmem
  constructor
  · rintro ⟨h1, h2⟩
    exact ⟨d, hd, m, hp, h1, h2, top⟩
  · rintro ⟨d', hd', y, hy', h1, h2, h3⟩
    have e : y = m := le_antisymm (top d' hd' y hy') (h3 d hd m hp)
    rw [← e]
    exact ⟨h1, h2⟩

theorem polygon_iterator (xs ys : List ℝ) : ∃ e, polygon false xs ys = .error e := by
  unfold polygon
  split
  · exact ⟨_, rfl⟩
  · exact ⟨_, rfl⟩

theorem polygon_ok {st : State R D} {dGs : List D} {xs ys : List ℝ} {i : ℕ} {p : List (ℝ × ℝ)} (hy : List.Forall₂ (ProbAt st i) dGs ys)
    (h : polygon true xs ys = .ok p) : Under st dGs xs i p := by
  unfold polygon at h
  split at h
  · rename_i a b ha hb
    simp only [if_true, Except.ok.injEq] at h
    exact ⟨ys, a, b, hy, ha, hb, by rw [← h]; simp⟩
  · cases h

theorem rows_iterator {st : State R D} {dGs : List D} {xs : List ℝ} {lo hi : ℝ} : ∀ {is : List ℕ} {r : List (ℕ × List (ℝ × ℝ))},
    rows false st dGs xs lo hi is = .ok r → r = []
  | [], r, h => by cases h; rfl
  | i :: is, r, h => by
    unfold rows at h
    split at h
    · cases h
    · split at h
      · cases h
      · rename_i ys _ _ _ _
        split at h
        · obtain ⟨e, he⟩ := polygon_iterator xs ys
          rw [he] at h
          cases h
        · exact rows_iterator h

open Classical in
theorem rows_ok {st : State R D} {dGs : List D} {xs : List ℝ} {lo hi : ℝ} : ∀ {is : List ℕ} {r : List (ℕ × List (ℝ × ℝ))},
    rows true st dGs xs lo hi is = .ok r →
      r.map Prod.fst = is.filter (fun i => MaxIn st dGs lo hi i) ∧ ∀ q ∈ r, Under st dGs xs q.1 q.2
  | [], r, h => by cases h; exact ⟨rfl, fun q hq => by cases hq⟩
  | i :: is, r, h => by
    unfold rows at h
    split at h
    · cases h
    · rename_i ys hys
      have hy := column_ok st hys
      split at h
      · cases h
      · rename_i m hm
        have hiff := maxIn_iff (lo := lo) (hi := hi) hy hm
        split at h
        · rename_i hin
          split at h
          · cases h
          · rename_i p hp
            split at h
            · cases h
            · rename_i r' hr
              cases h
              obtain ⟨h1, h2⟩ := rows_ok hr
              have hM := hiff.1 hin
              refine ⟨by simp [h1, hM], fun q hq => ?_⟩
              rcases List.mem_cons.1 hq with rfl | hq
              · exact polygon_ok hy hp
              · exact h2 q hq
        · rename_i hin
          have hM : ¬ MaxIn st dGs lo hi i := fun hM => hin (hiff.2 hM)
          obtain ⟨h1, h2⟩ := rows_ok h
          exact ⟨by simp [h1, hM], h2⟩

/-- What a call that returns has drawn. -/
theorem plot3d_ok {z : Bool} {st : State R D} {dGs : List D} {xs : Res (List ℝ)} {lo hi : ℝ} {classes : List ℕ}
    {paint lines : List ℕ → Res Unit} {rest : Res Unit} {r : List (ℕ × List (ℝ × ℝ))}
    (h : plot3d z st dGs xs lo hi classes paint lines rest = .ok r) : ∃ v, xs = .ok v ∧ rows z st dGs v lo hi classes = .ok r ∧ r ≠ [] := by
  unfold plot3d at h
  split at h
  · cases h
  · rename_i v
    split at h
    · cases h
    · rename_i r' hr
      split at h
      · cases h
      · split at h
        · cases h
        · cases h
        · split at h
          · cases h
          · split at h
            · cases h
            · cases h
              exact ⟨v, rfl, hr, by simp⟩

/-- **C122, finding.** With an iterating `zip`, that is, in every version of Python the package supports, `plot3dclassprobs` raises: for
every selection, all uncertainties, classes, ranges of probabilities and scales, and whatever the drawing does. -/
theorem c122_never (st : State R D) (dGs : List D) (xs : Res (List ℝ)) (lo hi : ℝ) (classes : List ℕ) (paint lines : List ℕ → Res Unit)
    (rest : Res Unit) : ∃ e, plot3d false st dGs xs lo hi classes paint lines rest = .error e := by
  cases h : plot3d false st dGs xs lo hi classes paint lines rest with
  | error e => exact ⟨e, rfl⟩
  | ok r =>
    obtain ⟨v, -, h1, h2⟩ := plot3d_ok h
    exact absurd (rows_iterator h1) h2

open Classical in
/-- **C122.** With a `zip` that makes a list a call that returns has drawn, in the order asked for, exactly the classes whose highest
probability is in the range, at least one, each as the closed polygon under its own probabilities. -/
theorem c122_shown (st : State R D) (dGs : List D) (xs : List ℝ) (lo hi : ℝ) (classes : List ℕ) (paint lines : List ℕ → Res Unit)
    (rest : Res Unit) (r : List (ℕ × List (ℝ × ℝ))) (h : plot3d true st dGs (.ok xs) lo hi classes paint lines rest = .ok r) :
    r ≠ [] ∧ r.map Prod.fst = classes.filter (fun i => MaxIn st dGs lo hi i) ∧ ∀ q ∈ r, Under st dGs xs q.1 q.2 := by
  obtain ⟨v, hv, h1, h2⟩ := plot3d_ok h
  cases hv
  exact ⟨h2, rows_ok h1⟩

/-! ### Example -/

/-- Two uncertainties; class 0 falls from 3/4 to 1/4, class 1 is always at 1/8, class 2 rises. -/
noncomputable def exState : State ℕ ℕ :=
  { (State.new : State ℕ ℕ) with
    classes := [[0, 1], [2], [3]]
    classprobs := fun d => if d = 5 then some [3/4, 1/8, 1/8] else some [1/4, 1/8, 5/8] }

theorem exRows : rows true exState [5, 6] [10, 12] (1/2) 1 [2, 1, 0] =
    .ok [(2, [(10, 0), (10, 1/8), (12, 5/8), (12, 0), (10, 0)]), (0, [(10, 0), (10, 3/4), (12, 1/4), (12, 0), (10, 0)])] := by
  have c0 : column exState 0 [5, 6] = .ok [3/4, 1/4] := rfl
  have c1 : column exState 1 [5, 6] = .ok [1/8, 1/8] := rfl
  have c2 : column exState 2 [5, 6] = .ok [1/8, 5/8] := rfl
  have m0 : ([3/4, 1/4] : List ℝ).max? = some (3/4) := by simp [List.max?]; norm_num
  have m1 : ([1/8, 1/8] : List ℝ).max? = some (1/8) := by simp [List.max?]
  have m2 : ([1/8, 5/8] : List ℝ).max? = some (5/8) := by simp [List.max?]; norm_num
  simp only [rows, c0, c1, c2, m0, m1, m2, polygon]
  norm_num

/-- Instance of `c122_shown`: of the classes 2, 1, 0 those that reach 1/2 are shown, 2 and 0.  With an iterator the same call raises ValueError. -/
example : plot3d true exState [5, 6] (.ok [10, 12]) (1/2) 1 [2, 1, 0] (fun _ => .ok ()) (fun _ => .ok ()) (.ok ()) =
    .ok [(2, [(10, 0), (10, 1/8), (12, 5/8), (12, 0), (10, 0)]), (0, [(10, 0), (10, 3/4), (12, 1/4), (12, 0), (10, 0)])] ∧
    plot3d false exState [5, 6] (.ok [10, 12]) (1/2) 1 [2, 1, 0] (fun _ => .ok ()) (fun _ => .ok ()) (.ok ()) = .error .value := by
  constructor
  · simp only [plot3d, exRows]
    rfl
  · have c2 : column exState 2 [5, 6] = .ok [1/8, 5/8] := rfl
    have m2 : ([1/8, 5/8] : List ℝ).max? = some (5/8) := by simp [List.max?]; norm_num
    simp only [plot3d, rows, c2, m2, polygon]
    norm_num

end Verif.Parts.Plot3d
