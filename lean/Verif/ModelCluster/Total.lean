import Verif.ModelCluster.Prune
import Verif.ModelCluster.AugmentBest

/-!
# When `fit`, `augment` and `prune` raise nothing, and what their peaks satisfy
-/

set_option linter.unusedSectionVars false

namespace Verif.Parts.ModelCluster

open Verif.Py Verif.PeakList

variable {K : Type} [Field K] [LinearOrder K]

/-- A quality that has been computed, by the evaluator `meth`. -/
def Rated (meth : String) (q : Evaluator.Ev K) : Prop := q.method = meth ∧ ∃ s, q.stat = some s

theorem Rated.lt {meth : String} {a b : Evaluator.Ev K} (ha : Rated meth a) (hb : Rated meth b) :
    ∃ v, Evaluator.lt a b = .ok v := by
  obtain ⟨h1, s, h2⟩ := ha
  obtain ⟨h3, t, h4⟩ := hb
  unfold Evaluator.lt Evaluator.guard2
  rw [if_neg (by rw [h1, h3]; simp), h2, h4]
  exact ⟨_, rfl⟩

theorem Rated.gt {meth : String} {a b : Evaluator.Ev K} (ha : Rated meth a) (hb : Rated meth b) :
    ∃ v, Evaluator.gt a b = .ok v := by
  obtain ⟨h1, s, h2⟩ := ha
  obtain ⟨h3, t, h4⟩ := hb
  unfold Evaluator.gt Evaluator.guard2
  rw [if_neg (by rw [h1, h3]; simp), h2, h4]
  exact ⟨_, rfl⟩

/-- The numerics of a cluster raise what the code expects them to raise, and evaluate every model. -/
structure Quiet (meth : String) (E : Env K) : Prop where
  sorts : SortsKeys E.as
  lsq : ∀ m e, m ≠ [] → (E.lsq m).1 = .error e → e = .fit
  est : E.estimate = .error .estimation ∨ ∃ p, E.estimate = .ok (some p)
  rated : ∀ m b, Rated meth (E.quality m b)

/-- A condition on single peaks that least squares keeps. -/
def Closed (E : Env K) (R : Part K → Prop) : Prop := ∀ m, (∀ p ∈ m, R p) → ∀ p ∈ (E.lsq m).2, R p

/-- In order of position. -/
def Ordered (m : List (Part K)) : Prop := m.Pairwise (fun p q => pos p ≤ pos q)

variable {meth : String} {E : Env K} {R : Part K → Prop}

theorem Quiet.est_err (hQ : Quiet meth E) {e : Err} (h : E.estimate = .error e) : e = .estimation := by
  rcases hQ.est with h' | ⟨p, h'⟩ <;> rw [h] at h' <;> simp at h'
  exact h'

theorem Quiet.est_ne (hQ : Quiet meth E) : E.estimate ≠ .ok none := by
  intro h
  rcases hQ.est with h' | ⟨p, h'⟩ <;> rw [h] at h' <;> simp at h'

theorem launch_plain {o : Opts} (ho : o.fitbaseline = false) (c : Cluster K) :
    fitBaseline o c = none ∧ launch E o c = ((E.lsq c.model).1, (E.lsq c.model).2, c.baseline) := by
  have hb : fitBaseline o c = none := by
    unfold fitBaseline; cases c.baseline <;> simp [ho]
  exact ⟨hb, by unfold launch; rw [hb]⟩

theorem fitCore_total (hQ : Quiet meth E) (o : Opts) (c : Cluster K) (hne : c.model ≠ []) :
    ∃ q, (fitCore E o c).1 = .ok q := by
  unfold fitCore
  have hl : ∀ e, (launch E o c).1 = .error e → e = .fit := by
    intro e he
    unfold launch at he
    split at he
    · exact hQ.lsq _ e (by simp) he
    · exact hQ.lsq _ e hne he
  generalize launch E o c = L at hl
  obtain ⟨r, m, bl⟩ := L
  cases r with
  | error e =>
    have := hl e rfl
    subst this
    exact ⟨_, rfl⟩
  | ok u =>
    simp only
    obtain ⟨v, hv⟩ := (hQ.rated (E.clean (sort E.as false pos m)) bl).lt (hQ.rated c.model c.baseline)
    rw [hv]
    cases v with
    | true => exact ⟨_, rfl⟩
    | false =>
      simp only
      split
      · exact ⟨_, rfl⟩
      · exact ⟨_, rfl⟩

theorem estimatepeak_cases (E : Env K) (m : List (Part K)) :
    (∃ e, E.estimate = .error e ∧ estimatepeak E m = (.error e, m)) ∨
    (E.estimate = .ok none ∧ estimatepeak E m = (.ok false, m)) ∨
    (∃ p, E.estimate = .ok (some p) ∧ estimatepeak E m = (.ok true, sort E.as false pos (p :: m))) := by
  unfold estimatepeak
  cases h : E.estimate with
  | error e => exact Or.inl ⟨e, rfl, rfl⟩
  | ok v =>
    cases v with
    | none => exact Or.inr (Or.inl ⟨rfl, rfl⟩)
    | some p =>
      refine Or.inr (Or.inr ⟨p, rfl, ?_⟩)
      have : replacepeaks E.as m [p] 0 0 = (.ok (), sort E.as false pos (p :: m)) := by
        unfold replacepeaks
        simp [getSlice, bounds]
      simp only [this]

theorem sort_ne {as : List K → List ℕ} (has : SortsKeys as) {m : List (Part K)} (h : m ≠ []) :
    sort as false pos m ≠ [] := by
  intro hc
  have := (c37_sort has false pos m).1
  rw [hc] at this
  exact h this.symm.eq_nil

theorem fit_total (hQ : Quiet meth E) (o : Opts) (c : Cluster K) : ∃ q, (fit E o c).1 = .ok q := by
  unfold fit
  split
  · exact ⟨_, rfl⟩
  split
  · split
    · rcases estimatepeak_cases E c.model with ⟨e, h1, h2⟩ | ⟨h1, h2⟩ | ⟨p, h1, h2⟩
      · have := hQ.est_err h1
        subst this
        rw [h2]; exact ⟨_, rfl⟩
      · exact absurd h1 hQ.est_ne
      · rw [h2]; exact fitCore_total hQ o _ (sort_ne hQ.sorts (by simp))
    · exact ⟨_, rfl⟩
  · rename_i hne
    exact fitCore_total hQ o c hne

theorem fitCore_ends (hQ : Quiet meth E) {L : List (Part K) → Res Unit × List (Part K)}
    (hL : ∀ m e, m ≠ [] → (L m).1 = .error e → e = .fit ∨ e = .type) (o : Opts) (c : Cluster K) (hne : c.model ≠ []) :
    (∃ q, (fitCore { E with lsq := L } o c).1 = .ok q) ∨
    ((∃ m, m ≠ [] ∧ (L m).1 = .error .type) ∧ (fitCore { E with lsq := L } o c).1 = .error .type) := by
  unfold fitCore
  have hl : ∀ e, (launch { E with lsq := L } o c).1 = .error e → e = .fit ∨ (e = .type ∧ ∃ m, m ≠ [] ∧ (L m).1 = .error .type) := by
    intro e he
    unfold launch at he
    split at he
    · rename_i b _
      have hne' : c.model ++ [b] ≠ [] := by simp
      rcases hL _ e hne' he with h | h
      · exact Or.inl h
      · subst h; exact Or.inr ⟨rfl, _, hne', he⟩
    · rcases hL _ e hne he with h | h
      · exact Or.inl h
      · subst h; exact Or.inr ⟨rfl, _, hne, he⟩
  generalize launch { E with lsq := L } o c = X at hl
  obtain ⟨r, m, bl⟩ := X
  cases r with
  | error e =>
    rcases hl e rfl with rfl | ⟨rfl, h⟩
    · exact Or.inl ⟨_, rfl⟩
    · exact Or.inr ⟨h, rfl⟩
  | ok u =>
    left
    simp only
    obtain ⟨v, hv⟩ := (hQ.rated (E.clean (sort E.as false pos m)) bl).lt (hQ.rated c.model c.baseline)
    rw [hv]
    cases v with
    | true => exact ⟨_, rfl⟩
    | false =>
      simp only
      split
      · exact ⟨_, rfl⟩
      · exact ⟨_, rfl⟩

/-- A fit that may raise TypeError. -/
theorem fit_ends (hQ : Quiet meth E) {L : List (Part K) → Res Unit × List (Part K)}
    (hL : ∀ m e, m ≠ [] → (L m).1 = .error e → e = .fit ∨ e = .type) (o : Opts) (c : Cluster K) :
    (∃ q, (fit { E with lsq := L } o c).1 = .ok q) ∨
    ((∃ m, m ≠ [] ∧ (L m).1 = .error .type) ∧ (fit { E with lsq := L } o c).1 = .error .type) := by
  unfold fit
  split
  · exact Or.inl ⟨_, rfl⟩
  split
  · split
    · rcases estimatepeak_cases { E with lsq := L } c.model with ⟨e, h1, h2⟩ | ⟨h1, h2⟩ | ⟨p, h1, h2⟩
      · have := hQ.est_err h1
        subst this
        rw [h2]; exact Or.inl ⟨_, rfl⟩
      · exact absurd h1 hQ.est_ne
      · rw [h2]; exact fitCore_ends hQ hL o _ (sort_ne hQ.sorts (by simp))
    · exact Or.inl ⟨_, rfl⟩
  · rename_i hne
    exact fitCore_ends hQ hL o c hne

theorem sort_mem (has : SortsKeys E.as) (m : List (Part K)) : ∀ p ∈ sort E.as false pos m, p ∈ m :=
  fun _ hp => (c37_sort has false pos m).1.subset hp

theorem sort_ordered {as : List K → List ℕ} (has : SortsKeys as) (m : List (Part K)) :
    Ordered (sort as false pos m) := by
  have := (c37_sort has false pos m).2
  exact this

theorem fitCore_all (hT : Tame E) (hR : Closed E R) {o : Opts} (ho : o.fitbaseline = false) (c : Cluster K)
    (hc : ∀ p ∈ c.model, R p) :
    (∀ p ∈ (fitCore E o c).2.1.model, R p) ∧ ∀ p ∈ (fitCore E o c).2.2, R p := by
  obtain ⟨hb, hl⟩ := launch_plain (E := E) ho c
  have h1 := hR c.model hc
  have h2 : ∀ p ∈ E.clean (sort E.as false pos (E.lsq c.model).2), R p :=
    fun p hp => h1 p (sort_mem hT.sorts _ p ((hT.clean _).subset hp))
  unfold fitCore
  rw [hl, hb]
  generalize hL : E.lsq c.model = L at h1 h2
  obtain ⟨r, m⟩ := L
  cases r with
  | error e =>
    simp only
    split
    · rename_i h; simp only [Prod.mk.injEq] at h; obtain ⟨_, rfl, _⟩ := h; exact ⟨hc, h1⟩
    · rename_i h; simp only [Prod.mk.injEq] at h; obtain ⟨_, rfl, _⟩ := h; exact ⟨h1, h1⟩
    · rename_i h; simp at h
  | ok u =>
    simp only
    split
    · exact ⟨h2, h2⟩
    · exact ⟨hc, h2⟩
    · split
      · exact ⟨hc, h2⟩
      · exact ⟨h2, h2⟩

theorem fit_all (hT : Tame E) (hR : Closed E R) {o : Opts} (ho : o.fitbaseline = false)
    (hE : o.estimate = true → ∀ p, E.estimate = .ok (some p) → R p) (c : Cluster K)
    (hc : ∀ p ∈ c.model, R p) :
    (∀ p ∈ (fit E o c).2.1.model, R p) ∧ ∀ p ∈ (fit E o c).2.2, R p := by
  unfold fit
  split
  · exact ⟨hc, hc⟩
  split
  · split
    · rename_i hoe
      rcases estimatepeak_cases E c.model with ⟨e, h1, h2⟩ | ⟨h1, h2⟩ | ⟨p, h1, h2⟩
      · rw [h2]
        split
        · rename_i h; simp only [Prod.mk.injEq] at h; obtain ⟨_, rfl⟩ := h; exact ⟨hc, hc⟩
        · rename_i h; simp only [Prod.mk.injEq] at h; obtain ⟨_, rfl⟩ := h; exact ⟨hc, hc⟩
        · rename_i h; simp at h
      · rw [h2]; exact fitCore_all hT hR ho _ hc
      · rw [h2]
        refine fitCore_all hT hR ho _ ?_
        intro q hq
        rcases List.mem_cons.1 (sort_mem hT.sorts _ q hq) with rfl | hq
        · exact hE hoe _ h1
        · exact hc q hq
    · exact ⟨hc, hc⟩
  · exact fitCore_all hT hR ho c hc

theorem fitCore_ordered (hT : Tame E) {o : Opts} (ho : o.fitbaseline = false) (hl : ∀ m e, m ≠ [] → (E.lsq m).1 = .error e → e = .fit)
    (c : Cluster K) (hne : c.model ≠ []) (hc : Ordered c.model) : Ordered (fitCore E o c).2.1.model := by
  obtain ⟨hb, hla⟩ := launch_plain (E := E) ho c
  have h2 : Ordered (E.clean (sort E.as false pos (E.lsq c.model).2)) :=
    (sort_ordered hT.sorts _).sublist (hT.clean _)
  have he := hl c.model
  unfold fitCore
  rw [hla, hb]
  generalize hL : E.lsq c.model = L at h2 he
  obtain ⟨r, m⟩ := L
  cases r with
  | error e =>
    have := he e hne rfl
    subst this
    exact hc
  | ok u =>
    simp only
    split
    · exact h2
    · exact hc
    · split
      · exact hc
      · exact h2

theorem fit_ordered (hT : Tame E) (hQ : Quiet meth E) {o : Opts} (ho : o.fitbaseline = false) (c : Cluster K)
    (hc : Ordered c.model) : Ordered (fit E o c).2.1.model := by
  unfold fit
  split
  · exact hc
  split
  · split
    · rcases estimatepeak_cases E c.model with ⟨e, h1, h2⟩ | ⟨h1, h2⟩ | ⟨p, h1, h2⟩
      · have := hQ.est_err h1
        subst this
        rw [h2]; exact hc
      · exact absurd h1 hQ.est_ne
      · rw [h2]; exact fitCore_ordered hT ho hQ.lsq _ (sort_ne hT.sorts (by simp)) (sort_ordered hT.sorts _)
    · exact hc
  · rename_i hne
    exact fitCore_ordered hT ho hQ.lsq c hne hc

/-! ### augment -/

theorem trial_total (hQ : Quiet meth E) (c : Cluster K) (best : List (Part K)) (s : Part K) :
    ∃ t, (trial E c best s).1 = .ok t ∧ Rated meth t.1 := by
  unfold trial
  obtain ⟨q, hq⟩ := fit_total hQ {} { c with model := best ++ [s] }
  generalize fit E {} { c with model := best ++ [s] } = F at hq
  obtain ⟨a, c', l⟩ := F
  simp only at hq
  subst hq
  exact ⟨_, rfl, hQ.rated _ _⟩

theorem trials_total (hQ : Quiet meth E) (best : List (Part K)) : ∀ (ss : List (Part K)) (c : Cluster K),
    ∃ ts, (trials E c best ss).1 = .ok ts ∧ ts.length = ss.length ∧ ∀ t ∈ ts, Rated meth t.1 := by
  intro ss
  induction ss with
  | nil => intro c; exact ⟨[], rfl, rfl, by simp⟩
  | cons s ss ih =>
    intro c
    unfold trials
    obtain ⟨t, h1, h2⟩ := trial_total hQ c best s
    generalize trial E c best s = T at h1
    obtain ⟨a, c'⟩ := T
    simp only at h1
    subst h1
    obtain ⟨ts, h3, h4, h5⟩ := ih c'
    generalize hTs : trials E c' best ss = Ts at h3
    obtain ⟨b, c''⟩ := Ts
    simp only at h3
    subst h3
    simp only [hTs]
    refine ⟨t :: ts, rfl, by simp [h4], ?_⟩
    intro u hu
    rcases List.mem_cons.1 hu with rfl | hu
    · exact h2
    · exact h5 u hu

/-- Picks the index of some element. -/
def PicksOne (pick : List (Evaluator.Ev K) → ℕ) : Prop := ∀ l, l ≠ [] → pick l < l.length

theorem augmentLoop_total (hQ : Quiet meth E) {pick : List (Evaluator.Ev K) → ℕ} (hP : PicksOne pick) :
    ∀ (n : ℕ) (c : Cluster K) (best : List (Part K)) (bq : Evaluator.Ev K) (source : List (Part K)),
    Rated meth bq → ∃ m, (augmentLoop E pick n c best bq source).1 = .ok m := by
  intro n
  induction n with
  | zero => intro c best bq source _; exact ⟨_, rfl⟩
  | succ n ih =>
    intro c best bq source hb
    unfold augmentLoop
    split
    · exact ⟨_, rfl⟩
    rename_i hne
    obtain ⟨ts, h1, h2, h3⟩ := trials_total hQ best source c
    generalize trials E c best source = T at h1
    obtain ⟨a, c'⟩ := T
    simp only at h1
    subst h1
    simp only
    have hlt : pick (ts.map Prod.fst) < ts.length := by
      have := hP (ts.map Prod.fst) (by
        intro h0
        rw [List.map_eq_nil_iff] at h0
        rw [h0] at h2
        exact hne (List.eq_nil_of_length_eq_zero h2.symm))
      rwa [List.length_map] at this
    have hget := List.getElem?_eq_getElem hlt
    have hr := h3 _ (List.getElem_mem hlt)
    generalize ts[pick (ts.map Prod.fst)] = t at hget hr
    obtain ⟨q, l, s⟩ := t
    rw [hget]
    simp only
    obtain ⟨v, hv⟩ := hr.gt hb
    rw [hv]
    cases v with
    | true => exact ih _ _ _ _ hr
    | false => exact ⟨_, rfl⟩

theorem trial_all (hT : Tame E) (hR : Closed E R) (hE : ∀ p, E.estimate = .ok (some p) → R p) (c : Cluster K)
    {best : List (Part K)} {s : Part K} (hb : ∀ p ∈ best, R p) (hs : R s) :
    (∀ p ∈ (trial E c best s).2.model, R p) ∧
    ∀ t, (trial E c best s).1 = .ok t → (∀ p ∈ t.2.1, R p) ∧ R t.2.2 := by
  have hbs : ∀ p ∈ best ++ [s], R p := by
    intro p hp
    rcases List.mem_append.1 hp with h | h
    · exact hb p h
    · rw [List.mem_singleton.1 h]; exact hs
  obtain ⟨h1, h2⟩ := fit_all hT hR (o := {}) rfl (fun _ => hE) { c with model := best ++ [s] } hbs
  unfold trial
  generalize fit E {} { c with model := best ++ [s] } = F at h1 h2
  obtain ⟨a, c', l⟩ := F
  cases a with
  | error e => exact ⟨h1, by intro t ht; simp at ht⟩
  | ok q =>
    refine ⟨h1, ?_⟩
    intro t ht
    simp only [Except.ok.injEq] at ht
    subst ht
    refine ⟨h2, ?_⟩
    simp only
    split
    · exact hs
    · cases hg : (E.lsq (best ++ [s])).2.getLast? with
      | none => exact hs
      | some v => exact hR _ hbs v (List.mem_of_getLast? hg)

theorem trials_all (hT : Tame E) (hR : Closed E R) (hE : ∀ p, E.estimate = .ok (some p) → R p)
    {best : List (Part K)} (hb : ∀ p ∈ best, R p) : ∀ (ss : List (Part K)) (c : Cluster K), (∀ p ∈ ss, R p) →
    (∀ p ∈ c.model, R p) → (∀ p ∈ (trials E c best ss).2.model, R p) ∧
    ∀ ts, (trials E c best ss).1 = .ok ts → ∀ t ∈ ts, (∀ p ∈ t.2.1, R p) ∧ R t.2.2 := by
  intro ss
  induction ss with
  | nil =>
    intro c _ hc
    refine ⟨hc, ?_⟩
    intro ts h
    have : ts = [] := by unfold trials at h; simpa using h.symm
    subst this
    simp
  | cons s ss ih =>
    intro c hs hc
    obtain ⟨h1, h2⟩ := trial_all hT hR hE c (best := best) (s := s) hb (hs s List.mem_cons_self)
    unfold trials
    generalize trial E c best s = T at h1 h2
    obtain ⟨a, c'⟩ := T
    cases a with
    | error e => exact ⟨h1, by intro ts h; simp at h⟩
    | ok t =>
      obtain ⟨h3, h4⟩ := ih c' (fun p hp => hs p (List.mem_cons_of_mem _ hp)) h1
      simp only
      generalize trials E c' best ss = T at h3 h4
      obtain ⟨b, c''⟩ := T
      cases b with
      | error e => exact ⟨h3, by intro ts h; simp at h⟩
      | ok us =>
        refine ⟨h3, ?_⟩
        intro ts h
        simp only [Except.ok.injEq] at h
        subst h
        intro u hu
        rcases List.mem_cons.1 hu with rfl | hu
        · exact h2 _ rfl
        · exact h4 us rfl u hu

theorem augmentLoop_all (hT : Tame E) (hR : Closed E R) (hE : ∀ p, E.estimate = .ok (some p) → R p)
    (pick : List (Evaluator.Ev K) → ℕ) : ∀ (n : ℕ) (c : Cluster K) (best : List (Part K)) (bq : Evaluator.Ev K)
    (source : List (Part K)), (∀ p ∈ c.model, R p) → (∀ p ∈ best, R p) → (∀ p ∈ source, R p) →
    (∀ p ∈ (augmentLoop E pick n c best bq source).2.model, R p) ∧
    ∀ m, (augmentLoop E pick n c best bq source).1 = .ok m → ∀ p ∈ m, R p := by
  intro n
  induction n with
  | zero =>
    intro c best bq source hc hb _
    refine ⟨hc, ?_⟩
    intro m h
    unfold augmentLoop at h
    simp only [Except.ok.injEq] at h
    rw [← h]; exact hb
  | succ n ih =>
    intro c best bq source hc hb hs
    unfold augmentLoop
    split
    · refine ⟨hc, ?_⟩
      intro m h
      simp only [Except.ok.injEq] at h
      rw [← h]; exact hb
    obtain ⟨h1, h2⟩ := trials_all hT hR hE hb source c hs hc
    generalize trials E c best source = T at h1 h2
    obtain ⟨a, c'⟩ := T
    cases a with
    | error e => exact ⟨h1, by intro m h; simp at h⟩
    | ok ts =>
      have h2 := h2 ts rfl
      simp only
      split
      · exact ⟨h1, by intro m h; simp at h⟩
      · rename_i q l s hget
        split
        · exact ⟨h1, by intro m h; simp at h⟩
        · refine ih _ _ _ _ h1 (h2 _ (List.mem_of_getElem? hget)).1 ?_
          intro p hp
          obtain ⟨t, ht, rfl⟩ := List.mem_map.1 ((List.eraseIdx_sublist _ _).subset hp)
          exact (h2 t ht).2
        · refine ⟨h1, ?_⟩
          intro m h
          simp only [Except.ok.injEq] at h
          rw [← h]; exact hb

theorem removable_closed (hT : Tame E) : Closed E (fun p => p.removable = true) := by
  intro m hm p hp
  have := hT.frame m
  obtain ⟨i, hi, rfl⟩ := List.getElem_of_mem hp
  have hlen := this.length_eq
  have := (List.forall₂_iff_get.1 this).2 i (by omega) hi
  have hf := this.removable
  simp only [List.get_eq_getElem] at hf
  rw [hf]
  exact hm _ (List.getElem_mem _)

/-- `augment` raises nothing if all peaks, old and new, are removable. -/
theorem augment_total (hT : Tame E) (hQ : Quiet meth E) {pick : List (Evaluator.Ev K) → ℕ} (hP : PicksOne pick)
    (hE : ∀ p, E.estimate = .ok (some p) → p.removable = true) (c : Cluster K) (source : List (Part K))
    (hc : ∀ p ∈ c.model, p.removable = true) (hs : ∀ p ∈ source, p.removable = true) :
    (augment E pick c source).1 = .ok () := by
  obtain ⟨best, h1⟩ := augmentLoop_total hQ hP source.length c c.model _ source (hQ.rated c.model c.baseline)
  obtain ⟨h2, -⟩ := augmentLoop_all hT (removable_closed hT) hE pick source.length c c.model
    (E.quality c.model c.baseline) source hc hc hs
  unfold augment
  generalize augmentLoop E pick source.length c c.model (E.quality c.model c.baseline) source = L at h1 h2
  obtain ⟨a, c'⟩ := L
  simp only at h1 h2
  subst h1
  simp only
  rw [replaceAll, if_neg (by simpa using h2)]
  simp only
  obtain ⟨q, hq⟩ := fit_total hQ {} { c' with model := sort E.as false pos best }
  generalize fit E {} { c' with model := sort E.as false pos best } = F at hq
  obtain ⟨b, c'', l⟩ := F
  simp only at hq
  subst hq
  rfl

theorem augment_all (hT : Tame E) (hR : Closed E R) (hE : ∀ p, E.estimate = .ok (some p) → R p)
    (pick : List (Evaluator.Ev K) → ℕ) (c : Cluster K) (source : List (Part K)) (hc : ∀ p ∈ c.model, R p)
    (hs : ∀ p ∈ source, R p) : ∀ p ∈ (augment E pick c source).2.model, R p := by
  obtain ⟨h1, h2⟩ := augmentLoop_all hT hR hE pick source.length c c.model
    (E.quality c.model c.baseline) source hc hc hs
  unfold augment
  generalize augmentLoop E pick source.length c c.model (E.quality c.model c.baseline) source = L at h1 h2
  obtain ⟨a, c'⟩ := L
  cases a with
  | error e => exact h1
  | ok best =>
    have h2 := h2 best rfl
    simp only
    rw [replaceAll]
    split
    · rename_i heq
      split at heq
      · simp only [Prod.mk.injEq] at heq; rw [← heq.2]; exact h1
      · simp at heq
    · rename_i m heq
      split at heq
      · simp at heq
      · simp only [Prod.mk.injEq, true_and] at heq
        subst heq
        have h3 := (fit_all hT hR (o := {}) rfl (fun _ => hE) { c' with model := sort E.as false pos best }
          (fun p hp => h2 p (sort_mem hT.sorts _ p hp))).1
        generalize fit E {} { c' with model := sort E.as false pos best } = F at h3
        obtain ⟨b, c'', l⟩ := F
        cases b with
        | error e => exact h3
        | ok q => exact h3

/-! ### prune -/

/-- As `Quiet`, for the numerics of `prune`. -/
structure PQuiet (meth : String) (P : PruneEnv K) : Prop where
  sorts : ∀ out, SortsKeys (P.env out).as
  lsq : ∀ out m e, m ≠ [] → ((P.env out).lsq m).1 = .error e → e = .fit
  rated : ∀ out m b, Rated meth ((P.env out).quality m b)
  qual : ∀ out m k, Rated meth (P.qual out m k)

variable {P : PruneEnv K}

theorem fit_noest_total (hT : SortsKeys E.as) (hl : ∀ m e, m ≠ [] → (E.lsq m).1 = .error e → e = .fit) (hr : ∀ m b, Rated meth (E.quality m b))
    (c : Cluster K) : ∃ q, (fit E { estimate := false } c).1 = .ok q := by
  have hQ : Quiet meth { E with estimate := .error .estimation } := ⟨hT, hl, Or.inl rfl, hr⟩
  have : fit E { estimate := false } c = fit { E with estimate := .error .estimation } { estimate := false } c := by
    unfold fit
    split
    · rfl
    split
    · rfl
    · rfl
  rw [this]
  exact fit_total hQ _ c

theorem checks_total (hQ : PQuiet meth P) (best : List (Part K)) : ∀ (is : List ℕ) (mc : Cluster K),
    ∃ cs, (checks P best mc is).1 = .ok cs ∧ (∀ t ∈ cs, Rated meth t.2.1) ∧
      ((∃ i ∈ is, (best[i]?.map (fun p => p.removable)).getD false = true) → cs ≠ []) := by
  intro is
  induction is with
  | nil => intro mc; exact ⟨[], rfl, by simp, by simp⟩
  | cons i is ih =>
    intro mc
    unfold checks
    split
    · unfold checkOne
      simp only
      obtain ⟨q, hq⟩ := fit_noest_total (hQ.sorts _) (hQ.lsq (leftOf best i ++ rightOf best i best.length))
        (hQ.rated (leftOf best i ++ rightOf best i best.length)) { mc with model := seg best i }
      generalize fit (P.env (leftOf best i ++ rightOf best i best.length)) { estimate := false }
        { mc with model := seg best i } = F at hq
      obtain ⟨a, mc', l⟩ := F
      simp only at hq
      subst hq
      simp only
      obtain ⟨cs, h1, h2, -⟩ := ih mc'
      generalize hC : checks P best mc' is = C at h1
      obtain ⟨b, mc''⟩ := C
      simp only at h1
      subst h1
      simp only
      refine ⟨_, rfl, ?_, by simp⟩
      intro t ht
      rcases List.mem_cons.1 ht with rfl | ht
      · exact hQ.qual _ _ _
      · exact h2 t ht
    · rename_i hn
      obtain ⟨cs, h1, h2, h3⟩ := ih mc
      refine ⟨cs, h1, h2, ?_⟩
      rintro ⟨j, hj, hr⟩
      rcases List.mem_cons.1 hj with rfl | hj
      · exact absurd hr hn
      · exact h3 ⟨j, hj, hr⟩

theorem checks_all (hT : ∀ out, Tame (P.env out)) (hR : ∀ out, Closed (P.env out) R) {best : List (Part K)}
    (hb : ∀ p ∈ best, R p) : ∀ (is : List ℕ) (mc : Cluster K) (cs : List (Check K)),
    (checks P best mc is).1 = .ok cs → ∀ t ∈ cs, ∀ p ∈ t.2.2, R p := by
  intro is
  induction is with
  | nil => intro mc cs h; unfold checks at h; simp only [Except.ok.injEq] at h; subst h; simp
  | cons i is ih =>
    intro mc cs h
    unfold checks at h
    split at h
    · unfold checkOne at h
      simp only at h
      have hseg : ∀ p ∈ seg best i, R p := by
        intro p hp
        unfold seg at hp
        rcases List.mem_append.1 hp with hp | hp
        · exact hb p ((List.take_sublist _ _).trans (List.drop_sublist _ _) |>.subset hp)
        · exact hb p ((List.take_sublist _ _).trans (List.drop_sublist _ _) |>.subset hp)
      have h1 := (fit_all (hT (leftOf best i ++ rightOf best i best.length))
        (hR (leftOf best i ++ rightOf best i best.length)) (o := { estimate := false }) rfl
        (by intro h; simp at h) { mc with model := seg best i } hseg).2
      generalize fit (P.env (leftOf best i ++ rightOf best i best.length)) { estimate := false }
        { mc with model := seg best i } = F at h h1
      obtain ⟨a, mc', l⟩ := F
      cases a with
      | error e => simp at h
      | ok q =>
        simp only at h h1
        have := ih mc'
        generalize checks P best mc' is = C at h this
        obtain ⟨b, mc''⟩ := C
        cases b with
        | error e => simp at h
        | ok us =>
          simp only [Except.ok.injEq] at h
          subst h
          intro t ht
          rcases List.mem_cons.1 ht with rfl | ht
          · exact h1
          · exact this us rfl t ht
    · exact ih mc cs h

theorem pruneLoop_total (hT : ∀ out, Tame (P.env out)) (hQ : PQuiet meth P) {pick : List (Evaluator.Ev K) → ℕ}
    (hP : PicksOne pick) : ∀ (n : ℕ) (mc : Cluster K) (self : List (Part K)) (go : Bool) (best : List (Part K))
    (bq : Evaluator.Ev K) (origLen : ℕ), Rated meth bq → best ≠ [] → (∀ p ∈ best, p.removable = true) →
    best.length ≤ origLen → best.length < n →
    (pruneLoop P pick n mc self go best bq origLen).1 = .ok () := by
  intro n
  induction n with
  | zero => intro mc self go best bq origLen _ _ _ _ h; omega
  | succ n ih =>
    intro mc self go best bq origLen hb hne hrem hlen hn
    unfold pruneLoop
    split
    · rfl
    obtain ⟨cs, h1, h2, h3⟩ := checks_total hQ best (List.range best.length) mc
    have hcne : cs ≠ [] := by
      apply h3
      have hpos : 0 < best.length := List.length_pos_iff.2 hne
      refine ⟨0, by simpa using hpos, ?_⟩
      rw [List.getElem?_eq_getElem hpos]
      simp [hrem _ (List.getElem_mem hpos)]
    generalize hC : checks P best mc (List.range best.length) = C at h1
    obtain ⟨a, mc'⟩ := C
    simp only at h1
    subst h1
    simp only
    have hlt : pick (cs.map (fun c => c.2.1)) < cs.length := by
      have := hP (cs.map (fun c => c.2.1)) (by simpa using hcne)
      rwa [List.length_map] at this
    have hget := List.getElem?_eq_getElem hlt
    have hr := h2 _ (List.getElem_mem hlt)
    generalize cs[pick (cs.map (fun c => c.2.1))] = t at hget hr
    obtain ⟨idx, q, l⟩ := t
    rw [hget]
    simp only
    obtain ⟨v, hv⟩ := hr.gt hb
    rw [hv]
    cases v with
    | false => rfl
    | true =>
      simp only
      obtain ⟨k1, k2, k3⟩ := round_facts hT hC hget hlen
      obtain ⟨q', hq'⟩ := fit_noest_total (hQ.sorts []) (hQ.lsq []) (hQ.rated [])
        { mc' with model := leftOf best idx ++ l ++ rightOf best idx origLen }
      obtain ⟨g1, -⟩ := fit_kept (hT []) (o := { estimate := false }) rfl
        { mc' with model := leftOf best idx ++ l ++ rightOf best idx origLen } (Or.inr rfl)
      generalize fit (P.env []) { estimate := false }
        { mc' with model := leftOf best idx ++ l ++ rightOf best idx origLen } = F at hq' g1
      obtain ⟨b, mc'', l'⟩ := F
      simp only at hq' g1
      subst hq'
      simp only
      split
      · rfl
      rename_i hmne
      have hk := k1.trans g1
      have hll := g1.length
      refine ih _ _ _ _ _ _ (hQ.qual _ _ _) hmne ?_ (by omega) (by omega)
      intro p hp
      have : key p ∈ best.map key := hk.sub.subset (List.mem_map.2 ⟨p, hp, rfl⟩)
      obtain ⟨p0, hp0, e⟩ := List.mem_map.1 this
      have := hrem p0 hp0
      unfold key at e
      simp only [Prod.mk.injEq] at e
      rw [← e.2.2.1]; exact this

/-- `prune` raises nothing if all peaks are removable. -/
theorem prune_total (hT : ∀ out, Tame (P.env out)) (hQ : PQuiet meth P) {pick : List (Evaluator.Ev K) → ℕ}
    (hP : PicksOne pick) (mc : Cluster K) {m : List (Part K)} (hrem : ∀ p ∈ m, p.removable = true) :
    (prune P pick mc m).1 = .ok () := by
  unfold prune
  split
  · rfl
  · rename_i hne
    exact pruneLoop_total hT hQ hP _ _ _ _ _ _ _ (hQ.qual _ _ _) hne hrem le_rfl (by omega)

theorem pruneLoop_all (hT : ∀ out, Tame (P.env out)) (hR : ∀ out, Closed (P.env out) R)
    (pick : List (Evaluator.Ev K) → ℕ) : ∀ (n : ℕ) (mc : Cluster K) (self : List (Part K)) (go : Bool)
    (best : List (Part K)) (bq : Evaluator.Ev K) (origLen : ℕ), (∀ p ∈ self, R p) → (∀ p ∈ best, R p) →
    ∀ p ∈ (pruneLoop P pick n mc self go best bq origLen).2, R p := by
  intro n
  induction n with
  | zero => intro mc self go best bq origLen hs _; exact hs
  | succ n ih =>
    intro mc self go best bq origLen hs hb
    unfold pruneLoop
    split
    · exact hs
    have h1 := checks_all hT hR hb (List.range best.length) mc
    generalize checks P best mc (List.range best.length) = C at h1
    obtain ⟨a, mc'⟩ := C
    cases a with
    | error e => exact hs
    | ok cs =>
      have h1 := h1 cs rfl
      simp only
      split
      · exact hs
      · rename_i idx q l hget
        split
        · exact hs
        · exact hs
        · have hm : ∀ p ∈ leftOf best idx ++ l ++ rightOf best idx origLen, R p := by
            intro p hp
            rcases List.mem_append.1 hp with hp | hp
            · rcases List.mem_append.1 hp with hp | hp
              · exact hb p ((List.take_sublist _ _).subset hp)
              · exact h1 _ (List.mem_of_getElem? hget) p hp
            · exact hb p ((List.drop_sublist _ _).subset hp)
          have h2 := (fit_all (hT []) (hR []) (o := { estimate := false }) rfl (by intro h; simp at h)
            { mc' with model := leftOf best idx ++ l ++ rightOf best idx origLen } hm).1
          generalize fit (P.env []) { estimate := false }
            { mc' with model := leftOf best idx ++ l ++ rightOf best idx origLen } = F at h2
          obtain ⟨b, mc'', l'⟩ := F
          cases b with
          | error e => exact hs
          | ok q' =>
            simp only
            split
            · exact h2
            · exact ih _ _ _ _ _ _ h2 h2

theorem prune_all (hT : ∀ out, Tame (P.env out)) (hR : ∀ out, Closed (P.env out) R)
    (pick : List (Evaluator.Ev K) → ℕ) (mc : Cluster K) {m : List (Part K)} (hm : ∀ p ∈ m, R p) :
    ∀ p ∈ (prune P pick mc m).2, R p := by
  unfold prune
  split
  · exact hm
  · exact pruneLoop_all hT hR pick _ _ _ _ _ _ _ hm hm

end Verif.Parts.ModelCluster
