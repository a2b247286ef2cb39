import Verif.ModelCluster.Augment

/-!
# C60: `augment` is a greedy search that never makes the model worse
-/

set_option linter.unusedSectionVars false

namespace Verif.Parts.ModelCluster

open Verif.Py Verif.PeakList

variable {K : Type} [Field K] [LinearOrder K]

/-- What a fit makes of the model does not depend on the data it is stored with, nor on earlier fits. -/
theorem fit_congr (E : Env K) (o : Opts) (c d : Cluster K) (h1 : c.model = d.model)
    (h2 : c.baseline = d.baseline) (h3 : c.neverFit = d.neverFit) :
    (fit E o c).2.1.model = (fit E o d).2.1.model ∧ (fit E o c).2.2 = (fit E o d).2.2 ∧
    (fit E o c).1 = (fit E o d).1 := by
  have core : ∀ c d : Cluster K, c.model = d.model → c.baseline = d.baseline →
      (fitCore E o c).2.1.model = (fitCore E o d).2.1.model ∧ (fitCore E o c).2.2 = (fitCore E o d).2.2 ∧
      (fitCore E o c).1 = (fitCore E o d).1 := by
    intro c d h1 h2
    have hb : fitBaseline o c = fitBaseline o d := by unfold fitBaseline; rw [h2]
    have hl : launch E o c = launch E o d := by unfold launch; rw [hb, h1, h2]
    unfold fitCore
    rw [hl, hb, h1, h2]
    generalize launch E o d = L
    obtain ⟨r, m, bl⟩ := L
    cases r with
    | error e => cases e <;> exact ⟨rfl, rfl, rfl⟩
    | ok u =>
      simp only
      generalize (match fitBaseline o d with | some _ => m | none => E.clean (sort E.as false pos m)) = lo
      generalize Evaluator.lt (E.quality (E.clean (sort E.as false pos m)) bl) (E.quality d.model d.baseline) = v
      cases v with
      | error e => exact ⟨rfl, rfl, rfl⟩
      | ok v =>
        cases v with
        | true => exact ⟨rfl, rfl, rfl⟩
        | false =>
          simp only
          split <;> exact ⟨rfl, rfl, rfl⟩
  unfold fit
  rw [h1, h3]
  by_cases hn : d.neverFit = true
  · rw [if_pos hn, if_pos hn]; exact ⟨h1, rfl, rfl⟩
  rw [if_neg hn, if_neg hn]
  by_cases hm : d.model = []
  · rw [if_pos hm, if_pos hm]
    by_cases he : o.estimate = true
    · rw [if_pos he, if_pos he]
      generalize estimatepeak E d.model = L
      obtain ⟨r, m⟩ := L
      cases r with
      | error e => cases e <;> exact ⟨rfl, rfl, rfl⟩
      | ok u => exact core _ _ rfl h2
    · rw [if_neg he, if_neg he]; exact ⟨h1, rfl, rfl⟩
  · rw [if_neg hm, if_neg hm]
    exact core c d h1 h2

/-- Every fit of some of the peaks `m`, whatever their parameter values, converges, and to something not worse. -/
def EConverges (E : Env K) (m : List (Part K)) : Prop :=
  ∀ ps bl, ps ≠ [] → (ps.map key).Subperm (m.map key) → (E.lsq ps).1 = .ok () ∧
    Evaluator.lt (E.quality (E.clean (sort E.as false pos (E.lsq ps).2)) bl) (E.quality ps bl) = .ok false

theorem cmp_stat {E : Env K} (hE : Comparable E) : ∃ h : Bool, ∀ m m' b b', ∃ s t,
    (E.quality m b).stat = some s ∧ (E.quality m' b').stat = some t ∧
    Evaluator.gt (E.quality m b) (E.quality m' b') = .ok (if h then decide (s > t) else decide (t > s)) ∧
    Evaluator.lt (E.quality m b) (E.quality m' b') = .ok (if h then decide (s < t) else decide (t < s)) := by
  obtain ⟨meth, h, hall⟩ := hE
  refine ⟨h, fun m m' b b' => ?_⟩
  obtain ⟨s, a1, a2, a3⟩ := hall m b
  obtain ⟨t, b1, b2, b3⟩ := hall m' b'
  have hg : Evaluator.guard2 (E.quality m b) (E.quality m' b') = .ok (s, t) := by
    unfold Evaluator.guard2
    rw [if_neg (by rw [a1, b1]; simp), a3, b3]
  refine ⟨s, t, a3, b3, ?_, ?_⟩
  · unfold Evaluator.gt; rw [hg]; simp only [a2]; rfl
  · unfold Evaluator.lt; rw [hg]; simp only [a2]; rfl

theorem notLt_trans {E : Env K} (hE : Comparable E) {m1 m2 m3 : List (Part K)} {b : Option (Part K)}
    (h1 : Evaluator.lt (E.quality m1 b) (E.quality m2 b) = .ok false)
    (h2 : Evaluator.lt (E.quality m2 b) (E.quality m3 b) = .ok false) :
    Evaluator.lt (E.quality m1 b) (E.quality m3 b) = .ok false := by
  obtain ⟨h, hall⟩ := cmp_stat hE
  obtain ⟨s, t, a1, a2, a3, a4⟩ := hall m1 m2 b b
  obtain ⟨s2, t2, b1, b2, b3, b4⟩ := hall m2 m3 b b
  obtain ⟨s3, t3, c1, c2, c3, c4⟩ := hall m1 m3 b b
  rw [a4] at h1
  rw [b4] at h2
  rw [c4]
  rw [a1, Option.some.injEq] at c1
  rw [a2, Option.some.injEq] at b1
  rw [b2, Option.some.injEq] at c2
  subst c1 b1 c2
  cases h
  · simp only [Bool.false_eq_true, if_false, Except.ok.injEq, decide_eq_false_iff_not, not_lt] at *
    exact h1.trans h2
  · simp only [if_true, Except.ok.injEq, decide_eq_false_iff_not, not_lt] at *
    exact h2.trans h1

theorem notLt_of_gt {E : Env K} (hE : Comparable E) {m1 m2 : List (Part K)} {b : Option (Part K)}
    (h1 : Evaluator.gt (E.quality m1 b) (E.quality m2 b) = .ok true) :
    Evaluator.lt (E.quality m1 b) (E.quality m2 b) = .ok false := by
  obtain ⟨h, hall⟩ := cmp_stat hE
  obtain ⟨s, t, a1, a2, a3, a4⟩ := hall m1 m2 b b
  rw [a3] at h1
  rw [a4]
  cases h
  · simp only [Bool.false_eq_true, if_false, Except.ok.injEq, decide_eq_true_eq, decide_eq_false_iff_not] at *
    exact not_lt.2 h1.le
  · simp only [if_true, Except.ok.injEq, decide_eq_true_eq, decide_eq_false_iff_not] at *
    exact not_lt.2 h1.le

theorem notLt_refl {E : Env K} (hE : Comparable E) (m : List (Part K)) (b : Option (Part K)) :
    Evaluator.lt (E.quality m b) (E.quality m b) = .ok false := by
  obtain ⟨h, hall⟩ := cmp_stat hE
  obtain ⟨s, t, a1, a2, a3, a4⟩ := hall m m b b
  rw [a1, Option.some.injEq] at a2
  subst a2
  rw [a4]
  simp

/-- "Not better than something not better" -/
theorem not_gt_trans {E : Env K} (hE : Comparable E) {m1 m2 m3 : List (Part K)} {b : Option (Part K)}
    (h1 : ¬ Better (E.quality m1 b) (E.quality m2 b)) (h2 : ¬ Better (E.quality m2 b) (E.quality m3 b)) :
    ¬ Better (E.quality m1 b) (E.quality m3 b) := by
  obtain ⟨h, hall⟩ := cmp_stat hE
  obtain ⟨s, t, a1, a2, a3, a4⟩ := hall m1 m2 b b
  obtain ⟨s2, t2, b1, b2, b3, b4⟩ := hall m2 m3 b b
  obtain ⟨s3, t3, c1, c2, c3, c4⟩ := hall m1 m3 b b
  unfold Better at *
  rw [a3] at h1
  rw [b3] at h2
  rw [c3]
  rw [a1, Option.some.injEq] at c1
  rw [a2, Option.some.injEq] at b1
  rw [b2, Option.some.injEq] at c2
  subst c1 b1 c2
  cases h
  · simp only [Bool.false_eq_true, if_false, Except.ok.injEq, decide_eq_true_eq, not_lt, gt_iff_lt] at *
    exact h2.trans h1
  · simp only [if_true, Except.ok.injEq, decide_eq_true_eq, not_lt, gt_iff_lt] at *
    exact h1.trans h2

theorem gt_total {E : Env K} (hE : Comparable E) (m m' : List (Part K)) (b : Option (Part K)) :
    ∃ v, Evaluator.gt (E.quality m b) (E.quality m' b) = .ok v := by
  obtain ⟨h, hall⟩ := cmp_stat hE
  obtain ⟨s, t, -, -, a3, -⟩ := hall m m' b b
  exact ⟨_, a3⟩

theorem fit_conv {E : Env K} (hE : Comparable E) {m : List (Part K)} (hC : EConverges E m) (c : Cluster K) (hne : c.model ≠ [])
    (hsub : (c.model.map key).Subperm (m.map key)) :
    (fit E {} c).2.2 = (fit E {} c).2.1.model ∧ (∃ o, (fit E {} c).1 = .ok o) ∧
    Evaluator.lt (E.quality (fit E {} c).2.1.model c.baseline) (E.quality c.model c.baseline) = .ok false := by
  unfold fit
  by_cases hn : c.neverFit = true
  · rw [if_pos hn]
    exact ⟨rfl, ⟨_, rfl⟩, notLt_refl hE _ _⟩
  · rw [if_neg hn, if_neg hne]
    obtain ⟨c1, c2⟩ := hC c.model c.baseline hne hsub
    have hb : fitBaseline {} c = none := by
      unfold fitBaseline; cases c.baseline <;> simp
    have hl : launch E {} c = (.ok (), (E.lsq c.model).2, c.baseline) := by
      unfold launch; rw [hb]; simp only [c1]
    unfold fitCore
    simp only [hl, hb, c2]
    rw [if_neg (by simp)]
    exact ⟨rfl, ⟨_, rfl⟩, c2⟩

/-! ### Specification of the search -/

/-- The model when the peak `s` is added to `best` and the result is fitted in the cluster. -/
def added (E : Env K) (c : Cluster K) (best : List (Part K)) (s : Part K) : List (Part K) :=
  (fit E {} { c with model := best ++ [s] }).2.1.model

/-- A greedy search from the model `best` with candidates `source` ends at `final`: as long as adding some
candidate makes the model better, one that makes it best is added.  The other candidates stay, but the
attempts may have changed their parameter values. -/
inductive Greedy (E : Env K) (c : Cluster K) : List (Part K) → List (Part K) → List (Part K) → Prop
  | stop (best source : List (Part K))
      (h : ∀ s ∈ source, ¬ Better (E.quality (added E c best s) c.baseline) (E.quality best c.baseline)) :
      Greedy E c best source best
  | step (best source rest rest' final : List (Part K)) (s : Part K) (hs : source.Perm (s :: rest))
      (hb : Better (E.quality (added E c best s) c.baseline) (E.quality best c.baseline))
      (hmax : ∀ s' ∈ source, ¬ Better (E.quality (added E c best s') c.baseline)
        (E.quality (added E c best s) c.baseline))
      (hr : List.Forall₂ Frame rest rest')
      (hg : Greedy E c (added E c best s) rest' final) : Greedy E c best source final

/-- What `argsort()[-1]` promises for evaluations of one class: the index of one that no other beats. -/
def PicksBest (pick : List (Evaluator.Ev K) → ℕ) : Prop :=
  ∀ qs, qs ≠ [] → (∃ (meth : String) (h : Bool), ∀ q ∈ qs, ∃ s, q.method = meth ∧ q.higherIsBetter = h ∧
    q.stat = some s) → ∃ q, qs[pick qs]? = some q ∧ ∀ q' ∈ qs, ¬ Better q' q

theorem trials_ok {E : Env K} (hE : Comparable E) {m : List (Part K)} (hC : EConverges E m) (best : List (Part K)) :
    ∀ (ss : List (Part K)) (c : Cluster K), (∀ s ∈ ss, ((best ++ [s]).map key).Subperm (m.map key)) → ∃ ts, (trials E c best ss).1 = .ok ts := by
  intro ss
  induction ss with
  | nil => intro c _; exact ⟨_, rfl⟩
  | cons s ss ih =>
    intro c hsub
    unfold trials
    have ht : ∃ t c1, trial E c best s = (.ok t, c1) := by
      unfold trial
      obtain ⟨-, ⟨o, h2⟩, -⟩ := fit_conv hE hC { c with model := best ++ [s] } (by simp) (hsub s List.mem_cons_self)
      generalize fit E {} { c with model := best ++ [s] } = f at h2
      obtain ⟨f1, f2, f3⟩ := f
      simp only at h2
      subst h2
      exact ⟨_, _, rfl⟩
    obtain ⟨t, c1, ht⟩ := ht
    rw [ht]
    simp only
    obtain ⟨ts, hts⟩ := ih c1 (fun s hs => hsub s (List.mem_cons_of_mem _ hs))
    generalize trials E c1 best ss = X at hts
    obtain ⟨x1, x2⟩ := X
    simp only at hts
    subst hts
    exact ⟨_, rfl⟩

theorem frames_keys {a b : List (Part K)} (h : List.Forall₂ Frame a b) : b.map key = a.map key := by
  induction h with
  | nil => rfl
  | cons h _ ih =>
    simp only [List.map_cons, ih]
    congr 1
    unfold key
    rw [h.owner, h.free, h.removable, h.static, h.shaped, h.fixed]

/-- The peaks after adding a candidate, with the candidates that are left, come from those before. -/
theorem added_sub {E : Env K} (hT : Tame E) (c : Cluster K) {best source rest rest' m : List (Part K)} {s : Part K}
    (h4 : ((best ++ source).map key).Subperm (m.map key)) (hs : source.Perm (s :: rest))
    (hr : rest'.map key = rest.map key) : ((added E c best s ++ rest').map key).Subperm (m.map key) := by
  have hk := (fit_kept hT (o := {}) rfl { c with model := best ++ [s] } (Or.inl (by simp))).1.sub
  have h1 : ((added E c best s).map key ++ rest'.map key).Subperm ((best ++ [s]).map key ++ rest'.map key) :=
    (List.subperm_append_right _).2 hk
  rw [← List.map_append, hr, ← List.map_append] at h1
  refine h1.trans (List.Subperm.trans (List.Perm.subperm (List.Perm.map key ?_)) h4)
  rw [List.append_assoc]
  exact List.Perm.append_left best hs.symm

theorem loop_greedy {E : Env K} (hT : Tame E) (hE : Comparable E) {m : List (Part K)} (hC : EConverges E m)
    {pick : List (Evaluator.Ev K) → ℕ} (hP : PicksBest pick) (c0 : Cluster K) :
    ∀ (n : ℕ) (c : Cluster K) (best source : List (Part K)), source.length ≤ n →
      ((best ++ source).map key).Subperm (m.map key) →
      c.neverFit = c0.neverFit → c.baseline = c0.baseline →
      ∃ final, (augmentLoop E pick n c best (E.quality best c0.baseline) source).1 = .ok final ∧
        Greedy E c0 best source final ∧ (final.map key).Subperm (m.map key) ∧
        Evaluator.lt (E.quality final c0.baseline) (E.quality best c0.baseline) = .ok false := by
  intro n
  induction n with
  | zero =>
    intro c best source h1 h4 h2 h3
    have : source = [] := List.length_eq_zero_iff.1 (by omega)
    subst this
    rw [List.append_nil] at h4
    exact ⟨best, rfl, .stop best [] (by simp), h4, notLt_refl hE _ _⟩
  | succ n ih =>
    intro c best source h1 h4 h2 h3
    have hone : ∀ s ∈ source, ((best ++ [s]).map key).Subperm (m.map key) := by
      intro s hs
      refine List.Subperm.trans (List.Sublist.subperm (List.Sublist.map key ?_)) h4
      exact (List.Sublist.refl best).append (List.singleton_sublist.2 hs)
    unfold augmentLoop
    by_cases hs : source = []
    · rw [if_pos hs]
      subst hs
      rw [List.append_nil] at h4
      exact ⟨best, rfl, .stop best [] (by simp), h4, notLt_refl hE _ _⟩
    rw [if_neg hs]
    obtain ⟨ts, hts⟩ := trials_ok hE hC best source c hone
    obtain ⟨k1, k2, -, -, k5⟩ := trials_facts hT best source c
    have hkeys := fun c' (h : trials E c best source = (.ok ts, c')) => trials_keys hT h
    generalize htr : trials E c best source = X at hts k1 k2 k5 hkeys
    obtain ⟨x1, c'⟩ := X
    simp only at hts k1 k2 k5
    subst hts
    obtain ⟨l1, l2⟩ := k5 ts rfl
    have hfacts : ∀ (i : ℕ) (t : Evaluator.Ev K × List (Part K) × Part K), ts[i]? = some t →
        ∃ s, source[i]? = some s ∧ t.1 = E.quality (added E c0 best s) c0.baseline ∧
          t.2.1 = added E c0 best s ∧ Frame s t.2.2 := by
      intro i t hi
      obtain ⟨s, ci, a, b1, b2, b3, b4, -, b5⟩ := l2 i t hi
      have hco := fit_congr E {} { ci with model := best ++ [s] } { c0 with model := best ++ [s] } rfl
        (by simp only; rw [b2, h3]) (by simp only; rw [b1, h2])
      have hcv := fit_conv hE hC { ci with model := best ++ [s] } (by simp) (hone s (List.mem_of_getElem? a))
      refine ⟨s, a, ?_, ?_, b5⟩
      · rw [b3, hco.1, h3]; rfl
      · rw [b4, hcv.1, hco.1]; rfl
    have htsne : ts.map Prod.fst ≠ [] := by
      intro h0
      apply hs
      apply List.length_eq_zero_iff.1
      rw [← l1]
      simpa using h0
    obtain ⟨q, hq1, hq2⟩ := hP _ htsne (by
      obtain ⟨meth, h, hall⟩ := hE
      refine ⟨meth, h, ?_⟩
      intro q hq
      obtain ⟨t, ht, rfl⟩ := List.mem_map.1 hq
      obtain ⟨i, hi⟩ := List.getElem?_of_mem ht
      obtain ⟨s, -, e, -⟩ := hfacts i t hi
      rw [e]
      exact hall _ _)
    rw [List.getElem?_map] at hq1
    simp only
    generalize pick (ts.map Prod.fst) = idx at hq1
    obtain ⟨t, ht, rfl⟩ : ∃ t, ts[idx]? = some t ∧ t.1 = q := by
      cases hti : ts[idx]? with
      | none => rw [hti] at hq1; simp at hq1
      | some t => rw [hti] at hq1; exact ⟨t, rfl, by simpa using hq1⟩
    rw [ht]
    obtain ⟨s, hsi, e1, e2, e3⟩ := hfacts idx t ht
    obtain ⟨q, l, s'⟩ := t
    simp only at e1 e2 e3 hq2 ⊢
    subst e1 e2
    have hmax : ∀ s' ∈ source, ¬ Better (E.quality (added E c0 best s') c0.baseline)
        (E.quality (added E c0 best s) c0.baseline) := by
      intro s1 hs1
      obtain ⟨j, hj, hj2⟩ := List.getElem_of_mem hs1
      have htj : ts[j]? = some ts[j] := List.getElem?_eq_getElem (by omega)
      obtain ⟨s2, a, b, -, -⟩ := hfacts j _ htj
      rw [List.getElem?_eq_getElem hj, hj2, Option.some.injEq] at a
      subst a
      rw [← b]
      exact hq2 _ (List.mem_map_of_mem (List.getElem_mem _))
    obtain ⟨v, hv⟩ := gt_total hE (added E c0 best s) best c0.baseline
    rw [hv]
    cases v with
    | false =>
      refine ⟨best, rfl, .stop best source ?_,
        List.Subperm.trans (List.Sublist.subperm ((List.sublist_append_left _ _).map key)) h4, notLt_refl hE _ _⟩
      intro s1 hs1
      refine not_gt_trans hE (hmax s1 hs1) ?_
      unfold Better; rw [hv]; simp
    | true =>
      simp only
      have hlen : ((ts.map (fun t => t.2.2)).eraseIdx idx).length ≤ n := by
        have := getElem?_lt ht
        rw [List.length_eraseIdx]
        simp only [List.length_map]
        split <;> omega
      have hsub : ((added E c0 best s ++ (ts.map (fun t => t.2.2)).eraseIdx idx).map key).Subperm (m.map key) := by
        refine added_sub hT c0 h4 (erase_perm hsi).symm ?_
        rw [← List.eraseIdx_map, hkeys c' rfl, List.eraseIdx_map]
      obtain ⟨final, f1, f2, f4, f3⟩ := ih c' (added E c0 best s) ((ts.map (fun t => t.2.2)).eraseIdx idx) hlen hsub
        (by rw [k1, h2]) (by rw [k2, h3])
      refine ⟨final, f1, ?_, f4, notLt_trans hE f3 (notLt_of_gt hE hv)⟩
      refine .step best source (source.eraseIdx idx) _ final s (erase_perm hsi).symm hv hmax ?_ f2
      have hall : List.Forall₂ Frame source (ts.map (fun t => t.2.2)) := by
        refine List.forall₂_iff_get.2 ⟨by simp [l1], ?_⟩
        intro i hi1 hi2
        have hti : ts[i]? = some ts[i] := List.getElem?_eq_getElem (by omega)
        obtain ⟨s2, a, -, -, d⟩ := hfacts i _ hti
        rw [List.getElem?_eq_getElem hi1, Option.some.injEq] at a
        simpa [a] using d
      clear hlen f1 f2 f3 hsub h4 hone hfacts l1 l2 hsi ht
      generalize ts.map (fun t => t.2.2) = Y at hall
      clear k5 hkeys htr hmax hv hq2 htsne h1 hs hq1
      induction hall generalizing idx with
      | nil => exact .nil
      | cons a b ih2 =>
        match idx with
        | 0 => exact b
        | i + 1 => exact .cons a (ih2 i)

/-- The quality depends on the peaks, not on their order. -/
def PermInvariant (E : Env K) : Prop := ∀ m m' bl, m.Perm m' → E.quality m bl = E.quality m' bl

/-- **C60.** If all peaks are removable and no fit is taken back, `augment` succeeds: a greedy search over the
source finds a model, the cluster's new model is the fit of that model, and it is not worse than the model
the cluster had. (If the model is or becomes empty: provided no peak can be estimated.) -/
theorem c60_augment_greedy (E : Env K) (hT : Tame E) (hE : Comparable E)
    (hQ : PermInvariant E) {pick : List (Evaluator.Ev K) → ℕ} (hP : PicksBest pick) (c : Cluster K)
    (source : List (Part K)) (hC : EConverges E (c.model ++ source)) (hrem : ∀ p ∈ c.model ++ source, p.removable = true)
    (hest : E.estimate = .error .estimation ∨ (c.model ≠ [] ∧ ∀ ps, ps ≠ [] → E.clean ps ≠ [])) :
    (augment E pick c source).1 = .ok () ∧
    (∃ final, Greedy E c c.model source final ∧
      (augment E pick c source).2.model =
        (fit E {} { c with model := sort E.as false pos final }).2.1.model) ∧
    Evaluator.lt (E.quality (augment E pick c source).2.model c.baseline) (E.quality c.model c.baseline) =
      .ok false := by
  have hI := loop_inv hT pick c.model source source.length c c.model (E.quality c.model c.baseline) source
    ⟨by rw [List.map_append]; exact subperm_append_right _ _, List.Subperm.refl _⟩ (List.Subperm.refl _)
    (List.Subperm.refl _)
  obtain ⟨final, g1, g2, g4, g3⟩ := loop_greedy hT hE hC hP c source.length c c.model source (le_refl _)
    (List.Subperm.refl _) rfl rfl
  have hfne : E.estimate = .error .estimation ∨ final ≠ [] := by
    rcases hest with h | ⟨h1, h2⟩
    · exact Or.inl h
    · right
      have : ∀ a b f, Greedy E c a b f → ((a ++ b).map key).Subperm ((c.model ++ source).map key) → a ≠ [] → f ≠ [] := by
        intro a b f hg
        induction hg with
        | stop => exact fun _ => id
        | step best source' rest rest' final s hs hb hmax hr hg ih =>
          intro hab ha
          apply ih (added_sub hT c hab hs (frames_keys hr))
          have hone : ((best ++ [s]).map key).Subperm ((c.model ++ source).map key) := by
            refine List.Subperm.trans (List.Sublist.subperm (List.Sublist.map key ?_)) hab
            exact (List.Sublist.refl best).append (List.singleton_sublist.2 (hs.symm.subset List.mem_cons_self))
          unfold added
          unfold fit
          split
          · simp
          · rw [if_neg (by simp)]
            unfold fitCore
            have hb0 : fitBaseline {} { c with model := best ++ [s] } = none := by
              unfold fitBaseline; cases c.baseline <;> simp
            obtain ⟨c1, c2⟩ := hC (best ++ [s]) c.baseline (by simp) hone
            have hl : launch E {} { c with model := best ++ [s] } =
                (.ok (), (E.lsq (best ++ [s])).2, c.baseline) := by
              unfold launch; rw [hb0]; simp only [c1]
            simp only [hl, hb0, c2]
            rw [if_neg (by simp)]
            simp only
            apply h2
            intro h0
            have hp := (c37_sort hT.sorts false pos (E.lsq (best ++ [s])).2).1
            rw [h0] at hp
            have h4 := (hT.frame (best ++ [s])).length_eq
            rw [List.nil_perm.1 hp] at h4
            simp at h4
      exact this _ _ _ g2 (List.Subperm.refl _) h1
  unfold augment
  generalize augmentLoop E pick source.length c c.model (E.quality c.model c.baseline) source = L at hI g1
  obtain ⟨r, c'⟩ := L
  obtain ⟨i1, i2, i3, i4⟩ := hI
  simp only at i1 i2 i3 i4 g1
  subst g1
  simp only
  have hany : ¬ (c'.model.any (fun p => !p.removable) = true) := by
    rw [List.any_eq_true]
    rintro ⟨p, hp1, hp2⟩
    have := i1.sub.subset (List.mem_map_of_mem hp1)
    obtain ⟨p', h1, h2⟩ := List.mem_map.1 this
    unfold key at h2
    simp only [Prod.mk.injEq] at h2
    have := hrem p' h1
    rw [h2.2.2.1] at this
    simp [this] at hp2
  rw [replaceAll, if_neg hany]
  simp only
  have hsp := (c37_sort hT.sorts false pos final).1
  have hco := fit_congr E {} { c' with model := sort E.as false pos final }
    { c with model := sort E.as false pos final } rfl (by simp only; rw [i3]) (by simp only; rw [i2])
  have hlast : (∃ o, (fit E {} { c with model := sort E.as false pos final }).1 = .ok o) ∧
      Evaluator.lt (E.quality (fit E {} { c with model := sort E.as false pos final }).2.1.model c.baseline)
        (E.quality (sort E.as false pos final) c.baseline) = .ok false := by
    by_cases hf0 : sort E.as false pos final = []
    · have : final = [] := by rw [hf0] at hsp; exact List.nil_perm.1 hsp
      rcases hfne with h | h
      · rw [hf0]
        unfold fit estimatepeak
        rw [h]
        simp only [if_true]
        split <;> exact ⟨⟨_, rfl⟩, notLt_refl hE _ _⟩
      · exact absurd this h
    · exact (fit_conv hE hC { c with model := sort E.as false pos final } hf0
        (((hsp.map key).subperm).trans g4)).2
  obtain ⟨⟨o, hl1⟩, hl2⟩ := hlast
  rw [← hco.2.2] at hl1
  rw [← hco.1] at hl2
  rw [hQ _ _ _ hsp] at hl2
  have hfin := notLt_trans hE hl2 g3
  generalize hX : fit E {} { c' with model := sort E.as false pos final } = X at hl1 hfin hco
  obtain ⟨x1, x2, x3⟩ := X
  simp only at hl1 hfin hco
  subst hl1
  exact ⟨rfl, ⟨final, g2, hco.1⟩, hfin⟩

/-! ### Concrete searches -/

/-- Some evaluation is not beaten. -/
theorem exists_best (meth : String) (h : Bool) : ∀ qs : List (Evaluator.Ev K), qs ≠ [] →
    (∀ q ∈ qs, ∃ s, q.method = meth ∧ q.higherIsBetter = h ∧ q.stat = some s) →
    ∃ q ∈ qs, ∀ q' ∈ qs, ¬ Better q' q := by
  have cmp : ∀ a b : Evaluator.Ev K, ∀ s t, a.method = meth → b.method = meth → a.higherIsBetter = h →
      a.stat = some s → b.stat = some t → (Better a b ↔ if h then t < s else s < t) := by
    intro a b s t h1 h2 h3 h4 h5
    have hg : Evaluator.guard2 a b = .ok (s, t) := by
      unfold Evaluator.guard2
      rw [if_neg (by rw [h1, h2]; simp), h4, h5]
    have : Evaluator.gt a b = .ok (if a.higherIsBetter then decide (s > t) else decide (t > s)) := by
      unfold Evaluator.gt; rw [hg]; rfl
    unfold Better
    rw [this, h3]
    cases h <;> simp
  intro qs
  induction qs with
  | nil => intro h0; exact absurd rfl h0
  | cons a qs ih =>
    intro _ hall
    obtain ⟨s, a1, a2, a3⟩ := hall a List.mem_cons_self
    by_cases hqs : qs = []
    · subst hqs
      refine ⟨a, List.mem_cons_self, ?_⟩
      intro q' hq'
      rw [List.mem_singleton.1 hq', cmp a a s s a1 a1 a2 a3 a3]
      cases h <;> simp
    · obtain ⟨b, hb, hmax⟩ := ih hqs (fun q hq => hall q (List.mem_cons_of_mem _ hq))
      obtain ⟨t, b1, b2, b3⟩ := hall b (List.mem_cons_of_mem _ hb)
      by_cases hab : Better a b
      · refine ⟨a, List.mem_cons_self, ?_⟩
        intro q' hq'
        obtain ⟨u, c1, c2, c3⟩ := hall q' hq'
        rw [cmp a b s t a1 b1 a2 a3 b3] at hab
        rw [cmp q' a u s c1 a1 c2 c3 a3]
        rcases List.mem_cons.1 hq' with rfl | hq'
        · rw [a3, Option.some.injEq] at c3
          subst c3
          cases h <;> simp
        · have := hmax q' hq'
          rw [cmp q' b u t c1 b1 c2 c3 b3] at this
          cases h
          · simp only [Bool.false_eq_true, if_false, not_lt] at *
            exact hab.le.trans this
          · simp only [if_true, not_lt] at *
            exact this.trans hab.le
      · refine ⟨b, List.mem_cons_of_mem _ hb, ?_⟩
        intro q' hq'
        rcases List.mem_cons.1 hq' with rfl | hq'
        · exact hab
        · exact hmax q' hq'

theorem pickBest_picks : PicksBest pickBest := by
  rintro qs hne ⟨meth, h, hall⟩
  obtain ⟨q, hq, hmax⟩ := exists_best meth h qs hne hall
  unfold pickBest
  have key : ∀ (f : ℕ → Bool) (n i : ℕ), i < n → f i = true →
      ∃ j, (List.range n).find? f = some j ∧ f j = true := by
    intro f n i hi hf
    cases hc : (List.range n).find? f with
    | none =>
      have := List.find?_eq_none.1 hc i (List.mem_range.2 hi)
      exact absurd hf this
    | some j => exact ⟨j, rfl, List.find?_some hc⟩
  obtain ⟨i, hi⟩ := List.getElem?_of_mem hq
  have hfi : unbeaten qs i = true := by
    unfold unbeaten
    simp only [hi]
    rw [List.all_eq_true]
    intro q' hq'
    have := hmax q' hq'
    unfold Better at this
    split
    · rename_i hx; exact absurd hx this
    · rfl
  obtain ⟨j, hj1, hj2⟩ := key _ qs.length i (getElem?_lt hi) hfi
  rw [hj1]
  unfold unbeaten at hj2
  cases hqj : qs[j]? with
  | none => rw [hqj] at hj2; simp at hj2
  | some q0 =>
    rw [hqj] at hj2
    refine ⟨q0, hqj, ?_⟩
    intro q' hq'
    simp only [List.all_eq_true] at hj2
    have := hj2 q' hq'
    intro hb
    unfold Better at hb
    rw [hb] at this
    simp at this

/-- The world of `sumWorld`, for one cluster. -/
def sumEnv (w : ℚ) (lsq : List (Part ℚ) → Res Unit × List (Part ℚ)) : Env ℚ :=
  { (sumWorld w lsq id).env [] with estimate := .error .estimation }

/-- Instance of `c60_augment_greedy` (and of the other theorems): to a peak at 1, of three candidates the one
at 5/2 is added; where parameters cost less, also the one at 3/2. -/
example : PicksBest pickBest ∧ Tame (sumEnv 1 (fun ps => (.ok (), ps))) ∧ Comparable (sumEnv 1 (fun ps => (.ok (), ps))) ∧
    EConverges (sumEnv 1 (fun ps => (.ok (), ps))) [pk 1 true, pk 9 true, pk (5/2) true, pk 2 true] ∧ PermInvariant (sumEnv 1 (fun ps => (.ok (), ps))) ∧
    (sumEnv 1 (fun ps => (.ok (), ps))).estimate = .error .estimation ∧
    posOf (augment (sumEnv 1 (fun ps => (.ok (), ps))) pickBest { exCluster with model := [pk 1 true] }
      [pk 9 true, pk (5/2) true, pk 2 true]).2.model = [1, 5/2] ∧
    posOf (augment (sumEnv (1/10) (fun ps => (.ok (), ps))) pickBest { exCluster with model := [pk 1 true] }
      [pk 9 true, pk (5/2) true, pk (3/2) true]).2.model = [1, 3/2, 5/2] := by
  have ht := sumWorld_tame 1 []
  refine ⟨pickBest_picks, ⟨ht.sorts, ht.frame, ht.clean, ht.hard⟩, ⟨"AIC", false, fun _ _ => ⟨_, rfl, rfl, rfl⟩⟩, ?_, ?_, rfl, by decide +kernel,
    by decide +kernel⟩
  · intro ps bl h h'
    exact sumWorld_converges 1 _ [] ps bl h h'
  · intro m m' bl h
    show sumQual 1 [] m 0 = sumQual 1 [] m' 0
    unfold sumQual npars
    rw [List.nil_append, List.nil_append, (h.map _).sum_eq, (h.map _).sum_eq]

/-- Instance of `c60_nonremovable_refused`: ValueError, and the last trial remains. -/
example : errOf (augment (sumEnv 1 (fun ps => (.ok (), ps))) pickBest { exCluster with model := [pk 1 false] }
      [pk 3 true, pk 9 true]).1 = some .value ∧
    posOf (augment (sumEnv 1 (fun ps => (.ok (), ps))) pickBest { exCluster with model := [pk 1 false] }
      [pk 3 true, pk 9 true]).2.model = [1, 3, 9] := by
  constructor <;> decide +kernel

/-- **C60, finding.** Augmenting can make the model worse: as in `c29_can_get_worse`, the model that is adopted
is the one the rejected fit stopped at.  A peak at 4 with the candidate 1 is perfect; the fit moves both
to 9, which is rejected — and then adopted. -/
theorem c60_can_get_worse :
    posOf (augment (sumEnv 0 (fun ps => (.ok (), ps.map (fun p => { p with pars := [9] })))) pickBest
      { exCluster with model := [pk 4 true] } [pk 1 true]).2.model = [9, 9] ∧
    (sumQual 0 [] [pk 4 true] 0).stat = some 1 ∧ (sumQual 0 [] [pk 9 true, pk 9 true] 0).stat = some 13 := by
  refine ⟨?_, ?_, ?_⟩ <;> decide +kernel

end Verif.Parts.ModelCluster
