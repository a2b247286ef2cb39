import Verif.ModelCluster.Prune

/-!
# C60: `ModelCluster.augment`
-/

set_option linter.unusedSectionVars false

namespace Verif.Parts.ModelCluster

open Verif.Py Verif.PeakList

variable {K : Type} [Field K] [LinearOrder K]

/-- The model is made of peaks among `M ++ S`, up to parameter values, and all the non-removable peaks of
`M` are in it. -/
structure Within (M S m : List (Part K)) : Prop where
  sub : (m.map key).Subperm ((M ++ S).map key)
  hard : (hard M).Subperm (hard m)

theorem Within.kept {M S m m' : List (Part K)} (h : Within M S m) (hk : Kept m m') : Within M S m' :=
  ⟨hk.sub.trans h.sub, h.hard.trans hk.hard.symm.subperm⟩

theorem hard_append (a b : List (Part K)) : hard (a ++ b) = hard a ++ hard b := by
  unfold ModelCluster.hard; rw [List.filter_append, List.map_append]

theorem subperm_append_right {α : Type} (a b : List α) : a.Subperm (a ++ b) :=
  (List.sublist_append_left a b).subperm

/-- What holds of one trial, however it ends. -/
theorem trial_facts {E : Env K} (hT : Tame E) (c : Cluster K) (best : List (Part K)) (s : Part K) :
    Kept (best ++ [s]) (trial E c best s).2.model ∧ (trial E c best s).2.neverFit = c.neverFit ∧
    (trial E c best s).2.baseline = c.baseline ∧
    ∀ t, (trial E c best s).1 = .ok t →
      t.1 = E.quality (fit E {} { c with model := best ++ [s] }).2.1.model c.baseline ∧
      t.2.1 = (fit E {} { c with model := best ++ [s] }).2.2 ∧ Kept (best ++ [s]) t.2.1 ∧ Frame s t.2.2 := by
  have hk := fit_kept hT (o := {}) rfl { c with model := best ++ [s] } (Or.inl (by simp))
  unfold trial
  generalize hf : fit E {} { c with model := best ++ [s] } = f at hk
  obtain ⟨f1, f2, f3⟩ := f
  simp only at hk
  cases f1 with
  | error e => exact ⟨hk.1, hk.2.2.1, hk.2.2.2, by intro t ht; simp at ht⟩
  | ok o =>
    refine ⟨hk.1, hk.2.2.1, hk.2.2.2, ?_⟩
    intro t ht
    simp only [Except.ok.injEq] at ht
    subst ht
    refine ⟨by simp only [hk.2.2.2], rfl, hk.2.1, ?_⟩
    simp only
    split
    · exact ⟨rfl, rfl, rfl, rfl, rfl, rfl⟩
    · have hfr := hT.frame (best ++ [s])
      generalize (E.lsq (best ++ [s])).2 = X at hfr
      obtain ⟨Y, y, rfl⟩ : ∃ Y y, X = Y ++ [y] := by
        have : X ≠ [] := by
          intro h0
          have := hfr.length_eq
          rw [h0] at this
          simp at this
        exact ⟨X.dropLast, X.getLast this, (List.dropLast_append_getLast this).symm⟩
      have := List.forall₂_reverse_iff.2 hfr
      rw [List.reverse_append, List.reverse_append] at this
      simp only [List.reverse_singleton, List.singleton_append, List.forall₂_cons] at this
      simpa using this.1

theorem trials_facts {E : Env K} (hT : Tame E) (best : List (Part K)) :
    ∀ (ss : List (Part K)) (c : Cluster K),
      (trials E c best ss).2.neverFit = c.neverFit ∧ (trials E c best ss).2.baseline = c.baseline ∧
      (ss ≠ [] → ∃ s ∈ ss, Kept (best ++ [s]) (trials E c best ss).2.model) ∧
      (ss = [] → (trials E c best ss).2 = c) ∧
      ∀ ts, (trials E c best ss).1 = .ok ts → ts.length = ss.length ∧
        ∀ (i : ℕ) (t : Evaluator.Ev K × List (Part K) × Part K), ts[i]? = some t →
          ∃ (s : Part K) (ci : Cluster K), ss[i]? = some s ∧ ci.neverFit = c.neverFit ∧
            ci.baseline = c.baseline ∧
            t.1 = E.quality (fit E {} { ci with model := best ++ [s] }).2.1.model c.baseline ∧
            t.2.1 = (fit E {} { ci with model := best ++ [s] }).2.2 ∧ Kept (best ++ [s]) t.2.1 ∧
            Frame s t.2.2 := by
  intro ss
  induction ss with
  | nil =>
    intro c
    refine ⟨rfl, rfl, by simp, fun _ => rfl, ?_⟩
    intro ts hts
    simp only [trials, Except.ok.injEq] at hts
    subst hts
    exact ⟨rfl, by intro i t h; simp at h⟩
  | cons s ss ih =>
    intro c
    obtain ⟨h1, h2, h3, h4⟩ := trial_facts hT c best s
    unfold trials
    generalize htr : trial E c best s = tr at h1 h2 h3 h4
    obtain ⟨r, c1⟩ := tr
    cases r with
    | error e =>
      exact ⟨h2, h3, fun _ => ⟨s, List.mem_cons_self, h1⟩, by simp, by intro ts h; simp at h⟩
    | ok t =>
      simp only at h1 h2 h3 h4 ⊢
      obtain ⟨k1, k2, k3, k4, k5⟩ := ih c1
      generalize htr2 : trials E c1 best ss = tr2 at k1 k2 k3 k4 k5
      obtain ⟨r2, c2⟩ := tr2
      have hm : ∃ s' ∈ s :: ss, Kept (best ++ [s']) c2.model := by
        by_cases hss : ss = []
        · have hk := k4 hss
          simp only at hk
          rw [hk]
          exact ⟨s, List.mem_cons_self, h1⟩
        · obtain ⟨s', a, b⟩ := k3 hss
          exact ⟨s', List.mem_cons_of_mem _ a, b⟩
      cases r2 with
      | error e =>
        exact ⟨by rw [← h2]; exact k1, by rw [← h3]; exact k2, fun _ => hm, by simp, by intro ts h; simp at h⟩
      | ok ts' =>
        refine ⟨by rw [← h2]; exact k1, by rw [← h3]; exact k2, fun _ => hm, by simp, ?_⟩
        intro ts hts
        simp only [Except.ok.injEq] at hts
        subst hts
        obtain ⟨l1, l2⟩ := k5 ts' rfl
        refine ⟨by simp [l1], ?_⟩
        intro i t' hi
        match i with
        | 0 =>
          simp only [List.getElem?_cons_zero, Option.some.injEq] at hi
          subst hi
          obtain ⟨a, b, d, e⟩ := h4 t rfl
          exact ⟨s, c, by simp, rfl, rfl, a, b, d, e⟩
        | i + 1 =>
          obtain ⟨s', ci, a, b, d, e⟩ := l2 i t' (by simpa using hi)
          exact ⟨s', ci, by simpa using a, by rw [b, h2], by rw [d, h3], by rw [← h3]; exact e.1, e.2⟩

/-- The source peaks after a round, up to parameter values. -/
theorem trials_keys {E : Env K} (hT : Tame E) {best ss : List (Part K)} {c c' : Cluster K}
    {ts : List (Evaluator.Ev K × List (Part K) × Part K)} (h : trials E c best ss = (.ok ts, c')) :
    (ts.map (fun t => t.2.2)).map key = ss.map key := by
  obtain ⟨-, -, -, -, h5⟩ := trials_facts hT best ss c
  rw [h] at h5
  obtain ⟨l1, l2⟩ := h5 ts rfl
  apply List.ext_getElem?
  intro i
  simp only [List.getElem?_map, Option.map_map]
  cases hi : ts[i]? with
  | none =>
    rw [List.getElem?_eq_none_iff, l1, ← List.getElem?_eq_none_iff] at hi
    rw [hi]; rfl
  | some t =>
    obtain ⟨s, ci, a, -, -, -, -, -, b⟩ := l2 i t hi
    rw [a]
    simp [frame_key b]

theorem erase_perm {α : Type} {l : List α} {i : ℕ} {a : α} (h : l[i]? = some a) :
    (a :: l.eraseIdx i).Perm l := by
  induction l generalizing i with
  | nil => simp at h
  | cons b l ih =>
    match i with
    | 0 =>
      simp only [List.getElem?_cons_zero, Option.some.injEq] at h
      subst h
      simp
    | i + 1 =>
      rw [List.eraseIdx_cons_succ]
      exact (List.Perm.swap _ _ _).trans ((ih (by simpa using h)).cons b)

/-- The invariant of the search. -/
theorem loop_inv {E : Env K} (hT : Tame E) (pick : List (Evaluator.Ev K) → ℕ) (M S : List (Part K)) :
    ∀ (n : ℕ) (c : Cluster K) (best : List (Part K)) (bq : Evaluator.Ev K) (source : List (Part K)),
      Within M S c.model → ((best ++ source).map key).Subperm ((M ++ S).map key) →
      (hard M).Subperm (hard best) →
      Within M S (augmentLoop E pick n c best bq source).2.model ∧
      (augmentLoop E pick n c best bq source).2.neverFit = c.neverFit ∧
      (augmentLoop E pick n c best bq source).2.baseline = c.baseline ∧
      ∀ b, (augmentLoop E pick n c best bq source).1 = .ok b → Within M S b := by
  have fin : ∀ (best source : List (Part K)), ((best ++ source).map key).Subperm ((M ++ S).map key) →
      (hard M).Subperm (hard best) → Within M S best := by
    intro best source h1 h2
    refine ⟨List.Subperm.trans ?_ h1, h2⟩
    rw [List.map_append]
    exact subperm_append_right _ _
  have one : ∀ (best source : List (Part K)) (s : Part K), s ∈ source →
      ((best ++ source).map key).Subperm ((M ++ S).map key) →
      (hard M).Subperm (hard best) → Within M S (best ++ [s]) := by
    intro best source s hs h1 h2
    refine ⟨List.Subperm.trans ?_ h1, ?_⟩
    · rw [List.map_append, List.map_append]
      refine (List.Subperm.refl _).append ?_
      exact (List.singleton_sublist.2 (List.mem_map_of_mem hs)).subperm
    · rw [hard_append]; exact h2.trans (subperm_append_right _ _)
  intro n
  induction n with
  | zero =>
    intro c best bq source h1 h2 h3
    refine ⟨h1, rfl, rfl, ?_⟩
    intro b hb
    simp only [augmentLoop, Except.ok.injEq] at hb
    subst hb
    exact fin best source h2 h3
  | succ n ih =>
    intro c best bq source h1 h2 h3
    unfold augmentLoop
    split
    · refine ⟨h1, rfl, rfl, ?_⟩
      intro b hb
      simp only [Except.ok.injEq] at hb
      subst hb
      exact fin best source h2 h3
    rename_i hs
    obtain ⟨k1, k2, k3, -, k5⟩ := trials_facts hT best source c
    obtain ⟨s0, hs0, hk0⟩ := k3 hs
    have hw0 : Within M S (trials E c best source).2.model := (one best source s0 hs0 h2 h3).kept hk0
    generalize htr : trials E c best source = tr at k1 k2 k5 hw0
    obtain ⟨r, c'⟩ := tr
    simp only at k1 k2 k5 hw0
    have key0 := fun ts (h : r = .ok ts) => trials_keys hT (h ▸ htr)
    cases r with
    | error e => exact ⟨hw0, k1, k2, by intro b hb; simp at hb⟩
    | ok ts =>
      simp only
      obtain ⟨l1, l2⟩ := k5 ts rfl
      cases hp : ts[pick (ts.map Prod.fst)]? with
      | none => exact ⟨hw0, k1, k2, by intro b hb; simp at hb⟩
      | some t =>
        obtain ⟨q, l, s'⟩ := t
        simp only
        cases Evaluator.gt q bq with
        | error e => exact ⟨hw0, k1, k2, by intro b hb; simp at hb⟩
        | ok v =>
          cases v with
          | false =>
            refine ⟨hw0, k1, k2, ?_⟩
            intro b hb
            simp only [Except.ok.injEq] at hb
            subst hb
            exact fin best source h2 h3
          | true =>
            simp only
            obtain ⟨s, ci, a, -, -, -, -, hk, hfr⟩ := l2 _ _ hp
            have hsmem := List.mem_of_getElem? a
            have := ih c' l q ((ts.map (fun t => t.2.2)).eraseIdx (pick (ts.map Prod.fst))) hw0 ?_ ?_
            · obtain ⟨x1, x2, x3, x4⟩ := this
              exact ⟨x1, by rw [x2, k1], by rw [x3, k2], x4⟩
            · refine List.Subperm.trans ?_ h2
              rw [List.map_append, List.map_append, ← List.eraseIdx_map, key0 ts rfl]
              have e1 := hk.sub
              rw [List.map_append] at e1
              have e2 : ((key s) :: (source.map key).eraseIdx (pick (ts.map Prod.fst))).Perm (source.map key) :=
                erase_perm (by rw [List.getElem?_map, a]; rfl)
              refine (e1.append (List.Subperm.refl _)).trans ?_
              rw [List.append_assoc]
              exact (List.Subperm.refl _).append e2.subperm
            · refine List.Subperm.trans ?_ hk.hard.symm.subperm
              rw [hard_append]; exact h3.trans (subperm_append_right _ _)

/-- Fitting, if a model emptied by the clean-up or empty from the start gets an estimated peak. -/
theorem fit_kept' {E : Env K} (hT : Tame E) (c : Cluster K) :
    Kept c.model (fit E {} c).2.1.model ∨ ∃ p, E.estimate = .ok (some p) ∧ Kept [p] (fit E {} c).2.1.model := by
  by_cases hne : c.model ≠ []
  · exact Or.inl (fit_kept hT (o := {}) rfl c (Or.inl hne)).1
  · rw [not_not] at hne
    unfold fit
    by_cases hn : c.neverFit = true
    · rw [if_pos hn]
      exact Or.inl (Kept.refl _)
    rw [if_neg hn, if_pos hne, if_pos rfl]
    unfold estimatepeak
    cases he : E.estimate with
    | error e =>
      simp only
      cases e <;> exact Or.inl (Kept.refl _)
    | ok op =>
      cases op with
      | none =>
        simp only
        exact Or.inl (fitCore_kept hT (o := {}) rfl _).1
      | some p =>
        have hsort : sort E.as false pos [p] = [p] := List.perm_singleton.1 (c37_sort hT.sorts false pos [p]).1
        have hr : replacepeaks E.as c.model [p] 0 0 = (.ok (), [p]) := by
          unfold replacepeaks
          rw [hne]
          simp [getSlice, bounds, hsort]
        simp only [hr]
        exact Or.inr ⟨p, rfl, (fitCore_kept hT (o := {}) rfl { c with model := [p] }).1⟩

theorem replaceAll (as : List K → List ℕ) (m new : List (Part K)) :
    replacepeaks as m new 0 m.length =
      if m.any (fun p => !p.removable) then (.error .value, m) else (.ok (), sort as false pos new) := by
  unfold replacepeaks
  have h1 : getSlice m (some (0, m.length)) = m := by
    unfold getSlice bounds; simp
  rw [h1]
  simp [bounds]

/-- **C60.** Augmenting adds only peaks of the source, whatever the fits do and however it ends: the peaks
afterwards are, up to parameter values, among those of the cluster and those of the source — except that a
model without any peak gets the one that is estimated when an empty cluster is fitted. -/
theorem c60_augment_peaks (E : Env K) (hT : Tame E) (pick : List (Evaluator.Ev K) → ℕ) (c : Cluster K)
    (source : List (Part K)) :
    ((augment E pick c source).2.model.map key).Subperm ((c.model ++ source).map key) ∨
    ∃ p, E.estimate = .ok (some p) ∧ ((augment E pick c source).2.model.map key).Subperm [key p] := by
  have hI := loop_inv hT pick c.model source source.length c c.model (E.quality c.model c.baseline) source
    ⟨by rw [List.map_append]; exact subperm_append_right _ _, List.Subperm.refl _⟩ (List.Subperm.refl _)
    (List.Subperm.refl _)
  unfold augment
  generalize augmentLoop E pick source.length c c.model (E.quality c.model c.baseline) source = L at hI
  obtain ⟨r, c'⟩ := L
  obtain ⟨h1, -, -, h4⟩ := hI
  simp only at h1 h4
  cases r with
  | error e => exact Or.inl h1.sub
  | ok best =>
    simp only
    rw [replaceAll]
    split
    · rename_i e m heq
      split at heq
      · simp only [Prod.mk.injEq, Except.error.injEq] at heq
        rw [← heq.2]
        exact Or.inl h1.sub
      · simp at heq
    · rename_i m heq
      split at heq
      · simp at heq
      · simp only [Prod.mk.injEq, true_and] at heq
        subst heq
        have hw := h4 best rfl
        have hs : Kept best (sort E.as false pos best) := Kept.of_perm (c37_sort hT.sorts false pos best).1
        have hf := fit_kept' hT { c' with model := sort E.as false pos best }
        generalize fit E {} { c' with model := sort E.as false pos best } = X at hf
        obtain ⟨a, b, d⟩ := X
        cases a <;>
        · rcases hf with hf | ⟨p, hp, hf⟩
          · exact Or.inl (((hw.kept hs).kept hf).sub)
          · exact Or.inr ⟨p, hp, hf.sub⟩

/-- **C60, finding.** A cluster that has a non-removable peak can not be augmented: the attempt always ends
with an exception, and the cluster is then left with whatever model was tried last, which still has all the
non-removable peaks. -/
theorem c60_nonremovable_refused (E : Env K) (hT : Tame E) (pick : List (Evaluator.Ev K) → ℕ)
    (c : Cluster K) (source : List (Part K)) (hp : ∃ p ∈ c.model, p.removable = false) :
    (∃ e, (augment E pick c source).1 = .error e) ∧
    ((c.model.filter (fun p => !p.removable)).map key).Subperm
      (((augment E pick c source).2.model.filter (fun p => !p.removable)).map key) := by
  have hI := loop_inv hT pick c.model source source.length c c.model (E.quality c.model c.baseline) source
    ⟨by rw [List.map_append]; exact subperm_append_right _ _, List.Subperm.refl _⟩ (List.Subperm.refl _)
    (List.Subperm.refl _)
  unfold augment
  generalize augmentLoop E pick source.length c c.model (E.quality c.model c.baseline) source = L at hI
  obtain ⟨r, c'⟩ := L
  obtain ⟨h1, -, -, h4⟩ := hI
  simp only at h1 h4
  cases r with
  | error e => exact ⟨⟨e, rfl⟩, h1.hard⟩
  | ok best =>
    simp only
    have hany : c'.model.any (fun p => !p.removable) = true := by
      obtain ⟨p, hp1, hp2⟩ := hp
      have : key p ∈ hard c'.model := by
        apply h1.hard.subset
        unfold ModelCluster.hard
        exact List.mem_map_of_mem (List.mem_filter.2 ⟨hp1, by simp [hp2]⟩)
      unfold ModelCluster.hard at this
      obtain ⟨p', hp', -⟩ := List.mem_map.1 this
      rw [List.any_eq_true]
      exact ⟨p', (List.mem_filter.1 hp').1, (List.mem_filter.1 hp').2⟩
    rw [replaceAll, if_pos hany]
    exact ⟨⟨_, rfl⟩, h1.hard⟩

/-! ### The search always ends -/

theorem augmentLoop_fuel {E : Env K} (hT : Tame E) (pick : List (Evaluator.Ev K) → ℕ) :
    ∀ (n k : ℕ) (c : Cluster K) (best : List (Part K)) (bq : Evaluator.Ev K) (source : List (Part K)),
      source.length ≤ n → source.length ≤ k →
      augmentLoop E pick n c best bq source = augmentLoop E pick k c best bq source := by
  intro n
  induction n with
  | zero =>
    intro k c best bq source h1 h2
    have : source = [] := List.length_eq_zero_iff.1 (by omega)
    cases k with
    | zero => rfl
    | succ k => rw [augmentLoop, augmentLoop, if_pos this]
  | succ n ih =>
    intro k c best bq source h1 h2
    cases k with
    | zero =>
      have : source = [] := List.length_eq_zero_iff.1 (by omega)
      rw [augmentLoop, augmentLoop, if_pos this]
    | succ k =>
      rw [augmentLoop, augmentLoop]
      split
      · rfl
      cases htr : trials E c best source with
      | mk r c' =>
        cases r with
        | error e => rfl
        | ok ts =>
          simp only
          cases hp : ts[pick (ts.map Prod.fst)]? with
          | none => rfl
          | some t =>
            obtain ⟨q, l, s'⟩ := t
            simp only
            cases Evaluator.gt q bq with
            | error e => rfl
            | ok v =>
              cases v with
              | false => rfl
              | true =>
                have hl : ts.length = source.length := by
                  have := congrArg List.length (trials_keys hT htr)
                  simpa using this
                have hlt := getElem?_lt hp
                refine ih k _ _ _ _ ?_ ?_ <;>
                · rw [List.length_eraseIdx]
                  simp only [List.length_map]
                  split <;> omega

/-- **C60.** The search always ends, after at most one round per source peak: giving it more rounds than the
model does makes no difference. -/
theorem c60_augment_terminates (E : Env K) (hT : Tame E) (pick : List (Evaluator.Ev K) → ℕ) (c : Cluster K)
    (source : List (Part K)) (n : ℕ) (hn : source.length ≤ n) :
    augmentLoop E pick n c c.model (E.quality c.model c.baseline) source =
      augmentLoop E pick source.length c c.model (E.quality c.model c.baseline) source :=
  augmentLoop_fuel hT pick _ _ _ _ _ _ hn (le_refl _)

end Verif.Parts.ModelCluster
