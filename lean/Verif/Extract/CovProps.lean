import Verif.Extract.CovModel
import Verif.Extract.Shape

/-!
# Property C97: the covariance that comes with a fit or an extraction

## Specification
-/

set_option linter.unusedSectionVars false

namespace Verif.Parts.Extract

open Verif.Py Verif.PeakList Verif.Parts.ModelCluster Verif.Parts.Covariance Verif.Extraction

variable {K : Type} [Field K] [LinearOrder K] [IsStrictOrderedRing K]

/-- The optimiser's matrices are square, with a row per free parameter. -/
def Squares (N : Numerics K) : Prop :=
  ∀ c ps, Squared (N.opt c ps).1 (npars ps false) ∧ Squared (N.opt c ps).2 (npars ps false)

/-- The covariance object `st` describes the parts `qs`, fitted to `nr` points by an optimiser that returned the matrix
`covx` and the deviations `fvec`: for every parameter the value in the format `outF`, and for every two of them the
covariance `cov_x · Σ fvec² / (nr - free parameters)` of the fitted parameters (0 for fixed ones), carried over to the new
format by the gradients. -/
structure Describes (G : Part K → Res (ℕ → ℕ → K)) (outF : Option String) (st : MC K) (qs : List (Part K)) (nr : ℕ)
    (covx : List (List K)) (fvec : List K) : Prop where
  parts : st.model = some (qs.map (movedOf (some "internal") outF))
  value : ∀ (i : ℕ) p j v, qs[i]? = some p → (movedOf (some "internal") outF p).pars[j]? = some v →
    st.getvalue (.pair i j) = .ok v
  cov : ∀ (i i' : ℕ) p p' j j', qs[i]? = some p → qs[i']? = some p' → j < p.pars.length → j' < p'.pars.length →
    st.getcovariance (.pair i j) (.pair i' j') =
      .ok (∑ b ∈ Finset.range p'.pars.length, (∑ a ∈ Finset.range p.pars.length,
        gradOf G (some "internal") outF p j a * rawCov qs nr covx fvec i' b i a) *
        gradOf G (some "internal") outF p' b j')

/-! ## Lemmas -/

theorem moved_length {p : Part K} (h : Sized p) (inF outF : Option String) : (movedOf inF outF p).pars.length = p.pars.length := by
  unfold movedOf
  cases ht : p.owner.transform p.pars inF outF with
  | error e => rfl
  | ok q => exact h _ _ _ _ ht

theorem covFitOn_eq (N : Numerics K) (hQ : Squares N) (G : Part K → Res (ℕ → ℕ → K)) (outF : Option String) (c : Cluster K) (st : MC K)
    {ps : List (Part K)} (hp : ∀ p ∈ ps, Proper p) :
    ((covFitOn N G outF c st ps).1, (covFitOn N G outF c st ps).2.1) = (codeWorld N).covLsq c ps ∧
    ((covFitOn N G outF c st ps).1 ≠ .ok () ∨ npars ps false = 0 → (covFitOn N G outF c st ps).2.2 = st) ∧
    ((covFitOn N G outF c st ps).1 = .ok () → 0 < npars ps false → ∃ x ier covx fvec,
      ((N.opt c ps).1.outcome = .done x ier (some covx) fvec ∨ (N.opt c ps).2.outcome = .done x ier (some covx) fvec) ∧
      Describes G outF (covFitOn N G outF c st ps).2.2 (covFitOn N G outF c st ps).2.1 c.r.length covx fvec ∧
      (covFitOn N G outF c st ps).2.1.length = ps.length) := by
  have hwf : WFParts ps := fun p h => ⟨(hp p h).pars, (hp p h).free⟩
  obtain ⟨h1, h2, h3, h4⟩ := covFit_proj G outF ⟨fun _ => false, N.trunc⟩ c.r.length (N.opt c ps).1 (N.opt c ps).2 st hwf
    (fun p h => (hp p h).floats) (fun p h => (hp p h).some) (fun p h => (hp p h).sized) (hQ c ps).1 (hQ c ps).2
  have hv := wf_valid hwf
  refine ⟨?_, ?_, ?_⟩
  · show _ = lsqOf ⟨fun _ => false, N.trunc⟩ c.r.length true (fun m => (N.opt c m).1) (fun m => (N.opt c m).2) ps
    unfold lsqOf covFitOn
    rw [h1, h2]
  · intro h
    apply h3
    intro C hC
    obtain ⟨hfree, -⟩ := h4 C _ (Prod.ext hC rfl)
    rcases h with h | h
    · apply h
      unfold covFitOn
      rw [h1, hC]
      rfl
    · omega
  · intro hok hfree
    unfold covFitOn at hok ⊢
    rw [h1] at hok
    generalize hf : Parts.fit ⟨fun _ => false, N.trunc⟩ ps c.r.length true (N.opt c ps).1 (N.opt c ps).2 = f at *
    obtain ⟨res, qs⟩ := f
    cases res with
    | error e => simp [Except.map] at hok
    | ok oc =>
      obtain ⟨_, _, _, _, _, _, _, _, _, _, _, _, _, s3⟩ := c18_fit_success _ ps hv (fun p h => (hp p h).floats) _ true _ _ hf hfree
      obtain ⟨m, -, rfl⟩ := s3 rfl
      obtain ⟨-, x, ier, covx, fvec, ho, w5, hlen, M, q1, q2, q3, q4, q5, q6, q7⟩ := h4 _ qs rfl
      refine ⟨x, ier, covx, fvec, ho, ⟨by rw [h2]; exact q3, ?_, by rw [h2]; exact q7⟩, by rw [h2]; exact hlen⟩
      intro i p j v hp hv
      rw [h2] at hp
      have hjl : j < p.pars.length := by
        rw [← moved_length (q6 p (List.mem_of_getElem? hp)) (some "internal") outF]
        by_contra hc
        rw [List.getElem?_eq_none (by omega)] at hv
        cases hv
      have hget : (movedOf (some "internal") outF p).get (.idx j) = .ok v := by
        simp only [Part.get, Part.position, pyIndex]
        rw [if_pos (by
          have := moved_length (q6 p (List.mem_of_getElem? hp)) (some "internal") outF
          constructor <;> omega)]
        simp [hv]
      unfold MC.getvalue
      simp only [MC.locate, q4.pmap i p hp j hjl, q3, List.getElem?_map, hp, Option.map_some, hget]

/-- `fit` uses the optimiser on the parts of `fitParts` only. -/
theorem fit_lsq (E : Env K) (L : List (Part K) → Res Unit × List (Part K)) (o : Opts) (c : Cluster K)
    (h : ∀ c', started E o c = some c' → L (fitParts o c') = E.lsq (fitParts o c')) :
    ModelCluster.fit { E with lsq := L } o c = ModelCluster.fit E o c := by
  have hl : ∀ c', started E o c = some c' → launch { E with lsq := L } o c' = launch E o c' := by
    intro c' hc
    have := h c' hc
    unfold fitParts at this
    unfold launch
    cases hb : fitBaseline o c' with
    | none =>
      rw [hb] at this
      simp only [Option.toList_none, List.append_nil] at this
      simp only [this]
    | some b =>
      rw [hb] at this
      simp only [Option.toList_some] at this
      simp only [this]
  have hcore : ∀ c', started E o c = some c' → fitCore { E with lsq := L } o c' = fitCore E o c' := by
    intro c' hc
    unfold fitCore
    rw [hl c' hc]
  have hest : estimatepeak { E with lsq := L } c.model = estimatepeak E c.model := rfl
  unfold ModelCluster.fit
  unfold started at hcore
  by_cases h1 : c.neverFit = true
  · rw [if_pos h1, if_pos h1]
  · rw [if_neg h1, if_neg h1]
    by_cases h2 : c.model = []
    · rw [if_pos h2, if_pos h2]
      by_cases h3 : o.estimate = true
      · rw [if_pos h3, if_pos h3, hest]
        rw [if_neg h1, if_pos h2, if_pos h3] at hcore
        generalize estimatepeak E c.model = e at hcore
        obtain ⟨r, m⟩ := e
        cases r with
        | error e => cases e <;> rfl
        | ok b => exact hcore _ rfl
      · rw [if_neg h3, if_neg h3]
    · rw [if_neg h2, if_neg h2]
      rw [if_neg h1, if_neg h2] at hcore
      exact hcore c rfl

theorem fitParts_proper {o : Opts} {c : Cluster K} (hm : ∀ p ∈ c.model, Proper p) (hb : ∀ b, c.baseline = some b → 0 < b.npars false → Proper b) :
    ∀ p ∈ fitParts o c, Proper p := by
  intro p hp
  unfold fitParts at hp
  rcases List.mem_append.1 hp with hp | hp
  · exact hm p hp
  · unfold fitBaseline at hp
    cases hc : c.baseline with
    | none => rw [hc] at hp; simp at hp
    | some b =>
      rw [hc] at hp
      simp only at hp
      split at hp
      · rename_i h
        simp only [Option.toList_some, List.mem_singleton] at hp
        subst hp
        exact hb p hc h.2
      · simp at hp

/-! ## Theorems -/

theorem started_proper (N : Numerics K) (hS : Sorting N) {o : Opts} {c c' : Cluster K} (hf : ProperFuncs N c.funcs)
    (hm : ∀ p ∈ c.model, Proper p) (h : started (codeEnv N c) o c = some c') :
    (∀ p ∈ c'.model, Proper p) ∧ c'.baseline = c.baseline ∧ c'.r = c.r ∧ c' = { c with model := c'.model } ∧ c'.neverFit = c.neverFit ∧
      (c.model ≠ [] → c' = c) := by
  unfold started at h
  split at h
  · simp at h
  split at h
  · rename_i hne
    split at h
    · rcases estimatepeak_cases (codeEnv N c) c.model with ⟨e, h1, h2⟩ | ⟨h1, h2⟩ | ⟨p, h1, h2⟩
      · rw [h2] at h; simp at h
      · rw [h2] at h
        simp only [Option.some.injEq] at h
        subst h
        exact ⟨hm, rfl, rfl, rfl, rfl, fun hc => absurd hne hc⟩
      · rw [h2] at h
        simp only [Option.some.injEq] at h
        subst h
        refine ⟨?_, rfl, rfl, rfl, rfl, fun hc => absurd hne hc⟩
        intro q hq
        have hq' := ((c37_sort hS.sorts false pos _).1.mem_iff).1 hq
        rw [hne] at hq'
        rw [List.mem_singleton.1 hq']
        exact guessed_proper N hf h1
    · simp at h
  · rename_i hne
    simp only [Option.some.injEq] at h
    subst h
    exact ⟨hm, rfl, rfl, rfl, rfl, fun _ => rfl⟩

/-- **C97.** Asking for the covariance does not change a fit: the answer of `fit` and the cluster are those of the
fits of C27, C72, C95. -/
theorem c97_same_fit (N : Numerics K) (hS : Sorting N) (hQ : Squares N) (G : Part K → Res (ℕ → ℕ → K)) (outF : Option String) (o : Opts)
    (c : Cluster K) (st : MC K) (hf : ProperFuncs N c.funcs) (hm : ∀ p ∈ c.model, Proper p)
    (hb : ∀ b, c.baseline = some b → 0 < b.npars false → Proper b) :
    (clusterFit N G outF o c st).1 = (ModelCluster.fit ((final (codeWorld N)).env c) o c).1 ∧
    (clusterFit N G outF o c st).2.1 = (ModelCluster.fit ((final (codeWorld N)).env c) o c).2.1 := by
  have : ModelCluster.fit (withCov N G outF st c) o c = ModelCluster.fit ((final (codeWorld N)).env c) o c := by
    refine fit_lsq ((final (codeWorld N)).env c) _ o c ?_
    intro c' hc
    obtain ⟨p1, p2, -⟩ := started_proper N hS hf hm (o := o) (c' := c') hc
    exact (covFitOn_eq N hQ G outF c st (fitParts_proper p1 (by rw [p2]; exact hb))).1
  unfold clusterFit
  rw [this]
  exact ⟨rfl, rfl⟩

theorem fit_started {E : Env K} {o : Opts} {c c1 : Cluster K} (h : started E o c = some c1) :
    ModelCluster.fit E o c = fitCore E o c1 := by
  unfold started at h
  unfold ModelCluster.fit
  by_cases h1 : c.neverFit = true
  · rw [if_pos h1] at h; simp at h
  · rw [if_neg h1] at h ⊢
    by_cases h2 : c.model = []
    · rw [if_pos h2] at h ⊢
      by_cases h3 : o.estimate = true
      · rw [if_pos h3] at h ⊢
        generalize estimatepeak E c.model = e at h ⊢
        obtain ⟨r, m⟩ := e
        cases r with
        | error e => simp at h
        | ok b =>
          simp only [Option.some.injEq] at h
          subst h
          rfl
      · rw [if_neg h3] at h; simp at h
    · rw [if_neg h2] at h ⊢
      simp only [Option.some.injEq] at h
      subst h
      rfl

theorem fit_not_started {E : Env K} {o : Opts} {c : Cluster K} (h : started E o c = none) {q : Evaluator.Ev K} :
    (ModelCluster.fit E o c).1 ≠ .ok (some q) := by
  unfold started at h
  unfold ModelCluster.fit
  by_cases h1 : c.neverFit = true
  · rw [if_pos h1]; simp
  · rw [if_neg h1] at h ⊢
    by_cases h2 : c.model = []
    · rw [if_pos h2] at h ⊢
      by_cases h3 : o.estimate = true
      · rw [if_pos h3] at h ⊢
        generalize estimatepeak E c.model = e at h ⊢
        obtain ⟨r, m⟩ := e
        cases r with
        | error e => cases e <;> simp
        | ok b => simp at h
      · rw [if_neg h3]; simp
    · rw [if_neg h2] at h
      simp at h

/-- What the launched fit leaves: the fitted peaks and, if it takes part, the fitted baseline. -/
theorem launch_parts {E : Env K} {o : Opts} {c : Cluster K} {m0 : List (Part K)} {bl : Option (Part K)}
    (h : launch E o c = (.ok (), m0, bl)) (hlen : (E.lsq (fitParts o c)).2.length = (fitParts o c).length) :
    (E.lsq (fitParts o c)).1 = .ok () ∧ (E.lsq (fitParts o c)).2 = m0 ++ (if (fitBaseline o c).isSome then bl.toList else []) ∧
      m0.length = c.model.length := by
  unfold launch at h
  unfold fitParts at hlen ⊢
  cases hb : fitBaseline o c with
  | none =>
    rw [hb] at h hlen
    simp only [Prod.mk.injEq, Option.toList_none, List.append_nil] at h hlen ⊢
    exact ⟨h.1, by rw [h.2.1]; simp, by rw [← h.2.1]; exact hlen⟩
  | some b =>
    rw [hb] at h hlen
    simp only [Prod.mk.injEq, Option.toList_some] at h hlen ⊢
    obtain ⟨h1, h2, h3⟩ := h
    generalize E.lsq (c.model ++ [b]) = f at *
    have hne : f.2 ≠ [] := by
      intro hc
      rw [hc] at hlen
      simp at hlen
    refine ⟨h1, ?_, ?_⟩
    · rw [← h2, ← h3, List.getLast?_eq_getLast_of_ne_nil hne]
      simp [List.dropLast_append_getLast hne]
    · rw [← h2, List.length_dropLast, hlen]
      simp

theorem sort_sorted {as : List K → List ℕ} (h : SortsKeys as) {ps : List (Part K)} (hs : ps.Pairwise (fun p q => pos p < pos q)) :
    sort as false pos ps = ps := by
  obtain ⟨h1, h2⟩ := c37_sort h false pos ps
  have hs' : ps.Pairwise (fun p q => pos p ≤ pos q) := hs.imp le_of_lt
  refine h1.eq_of_pairwise (le := fun p q => pos p ≤ pos q) ?_ h2 hs'
  intro a b ha hb hab hba
  by_contra hne
  have ha' := h1.subset ha
  have : ∀ {l : List (Part K)}, l.Pairwise (fun p q => pos p < pos q) → ∀ a ∈ l, ∀ b ∈ l, a ≠ b → pos a ≠ pos b := by
    intro l hl a ha b hb hne he
    have hl' : l.Pairwise (fun p q => pos p ≠ pos q) := hl.imp ne_of_lt
    exact List.Pairwise.forall_of_forall_of_flip (R := fun p q => p ≠ q → pos p ≠ pos q) (by simp)
      (hl'.imp (fun {a b} (h : pos a ≠ pos b) (_ : a ≠ b) => h)) (hl'.imp (fun {a b} (h : pos a ≠ pos b) (_ : b ≠ a) => h.symm)) ha hb hne he
  exact this hs a ha' b hb hne (le_antisymm hab hba)

/-- **C97.** A fit that is kept: if it has a free parameter, the covariance object describes the parts as they were fitted,
`m0` and the baseline if it took part, to all data of the cluster.  Every peak of the result is one of `m0`;
and if none was cleaned up and `m0` is in order of position, they are `m0`: then the numbering of the covariance is that of the
result.  Without a free parameter the object is as it was. -/
theorem c97_kept (N : Numerics K) (hS : Sorting N) (hQ : Squares N) (G : Part K → Res (ℕ → ℕ → K)) (outF : Option String) (o : Opts)
    (c : Cluster K) (st : MC K) (hf : ProperFuncs N c.funcs) (hm : ∀ p ∈ c.model, Proper p)
    (hb : ∀ b, c.baseline = some b → 0 < b.npars false → Proper b)
    {q : Evaluator.Ev K} {c' : Cluster K} {st' : MC K} (h : clusterFit N G outF o c st = (.ok (some q), c', st')) :
    ∃ c1, started (codeEnv N c) o c = some c1 ∧ (c.model ≠ [] → c1 = c) ∧ (∀ p ∈ c1.model, Proper p) ∧
      (npars (fitParts o c1) false = 0 → st' = st) ∧
      (0 < npars (fitParts o c1) false → ∃ m0 x ier covx fvec,
        ((N.opt c (fitParts o c1)).1.outcome = .done x ier (some covx) fvec ∨
          (N.opt c (fitParts o c1)).2.outcome = .done x ier (some covx) fvec) ∧
        Describes G outF st' (m0 ++ (if (fitBaseline o c1).isSome then c'.baseline.toList else [])) c.r.length covx fvec ∧
        m0.length = c1.model.length ∧ c'.model.Subperm m0 ∧
        (m0.Pairwise (fun a b => pos a < pos b) → c'.model.length = m0.length → c'.model = m0)) := by
  obtain ⟨s1, s2⟩ := c97_same_fit N hS hQ G outF o c st hf hm hb
  rw [h] at s1 s2
  simp only at s1 s2
  generalize hE : (final (codeWorld N)).env c = E at s1 s2
  have hstart : started E o c = started (codeEnv N c) o c := by rw [← hE]; rfl
  have hcomp : Comparable E := by rw [← hE]; exact codeEnv_comparable N c
  have hT : Tame E := by rw [← hE]; exact code_ctame N hS c
  cases hs : started (codeEnv N c) o c with
  | none => exact absurd s1.symm (fit_not_started (by rw [hstart]; exact hs))
  | some c1 =>
  obtain ⟨p1, p2, p3, p4, p5, p6⟩ := started_proper N hS hf hm hs
  have hpr := fitParts_proper (o := o) p1 (by rw [p2]; exact hb)
  obtain ⟨e1, e2, e3⟩ := covFitOn_eq N hQ G outF c st hpr
  have hst : st' = (covFitOn N G outF c st (fitParts o c1)).2.2 := by
    have : st' = (clusterFit N G outF o c st).2.2 := by rw [h]
    rw [this]
    unfold clusterFit
    rw [hs]
  refine ⟨c1, rfl, p6, p1, fun h0 => by rw [hst]; exact e2 (Or.inr h0), fun hfree => ?_⟩
  have hfc := fit_started (E := E) (o := o) (c := c) (c1 := c1) (by rw [hstart]; exact hs)
  rw [hfc] at s1 s2
  obtain ⟨-, -, h2⟩ := fitCore_cases E hcomp o c1
  rcases h2 with ⟨a, -, -⟩ | ⟨q', m0, hl, -, hmod, -⟩ | ⟨e, m, bl, -, -, a, -, -⟩
  · rw [a] at s1; simp at s1
  swap
  · rw [a] at s1; simp at s1
  rw [← s2] at hl hmod
  have hlsq : E.lsq (fitParts o c1) = (codeWorld N).covLsq c (fitParts o c1) := by rw [← hE]; rfl
  have hlen : (E.lsq (fitParts o c1)).2.length = (fitParts o c1).length := (hT.frame _).length_eq.symm
  obtain ⟨l1, l2, l3⟩ := launch_parts hl hlen
  rw [hlsq, ← e1] at l1 l2
  simp only at l1 l2
  obtain ⟨x, ier, covx, fvec, ho, hd, -⟩ := e3 l1 hfree
  rw [l2, ← hst] at hd
  refine ⟨m0, x, ier, covx, fvec, ho, hd, l3, ?_, ?_⟩
  · rw [hmod]
    exact (hT.clean _).subperm.trans (c37_sort hT.sorts false pos m0).1.subperm
  · intro hsorted hlen'
    rw [hmod] at hlen' ⊢
    have h5 := (hT.clean (sort E.as false pos m0))
    rw [sort_sorted hT.sorts hsorted] at h5 hlen' ⊢
    exact h5.eq_of_length hlen'

/-- **C97 (finding).** A fit that is not kept - the quality fell, or a further peak would be justified: the cluster has its
old peaks and baseline, but the covariance object describes the rejected ones. -/
theorem c97_reverted (N : Numerics K) (hS : Sorting N) (hQ : Squares N) (G : Part K → Res (ℕ → ℕ → K)) (outF : Option String) (o : Opts)
    (c : Cluster K) (st : MC K) (hf : ProperFuncs N c.funcs) (hm : ∀ p ∈ c.model, Proper p)
    (hb : ∀ b, c.baseline = some b → 0 < b.npars false → Proper b)
    {c1 c' : Cluster K} {st' : MC K} (h : clusterFit N G outF o c st = (.ok none, c', st'))
    (hs : started (codeEnv N c) o c = some c1) {qs : List (Part K)}
    (hfit : (codeWorld N).covLsq c (fitParts o c1) = (.ok (), qs)) (hfree : 0 < npars (fitParts o c1) false) :
    c'.model = c1.model ∧ c'.baseline = c1.baseline ∧
    ∃ x ier covx fvec,
        ((N.opt c (fitParts o c1)).1.outcome = .done x ier (some covx) fvec ∨
          (N.opt c (fitParts o c1)).2.outcome = .done x ier (some covx) fvec) ∧
        Describes G outF st' qs c.r.length covx fvec := by
  obtain ⟨s1, s2⟩ := c97_same_fit N hS hQ G outF o c st hf hm hb
  rw [h] at s1 s2
  simp only at s1 s2
  generalize hE : (final (codeWorld N)).env c = E at s1 s2
  have hstart : started E o c = started (codeEnv N c) o c := by rw [← hE]; rfl
  have hcomp : Comparable E := by rw [← hE]; exact codeEnv_comparable N c
  obtain ⟨p1, p2, p3, p4, p5, p6⟩ := started_proper N hS hf hm hs
  have hpr := fitParts_proper (o := o) p1 (by rw [p2]; exact hb)
  obtain ⟨e1, e2, e3⟩ := covFitOn_eq N hQ G outF c st hpr
  have hst : st' = (covFitOn N G outF c st (fitParts o c1)).2.2 := by
    have : st' = (clusterFit N G outF o c st).2.2 := by rw [h]
    rw [this]
    unfold clusterFit
    rw [hs]
  have hfc := fit_started (E := E) (o := o) (c := c) (c1 := c1) (by rw [hstart]; exact hs)
  rw [hfc] at s1 s2
  obtain ⟨-, -, h2⟩ := fitCore_cases E hcomp o c1
  rw [hfit, Prod.mk.injEq] at e1
  obtain ⟨x, ier, covx, fvec, ho, hd, -⟩ := e3 e1.1 hfree
  rw [e1.2, ← hst] at hd
  rcases h2 with ⟨a, b1, b2⟩ | ⟨q', m0, hl, a, hmod, -⟩ | ⟨e, m, bl, -, -, a, -, -⟩
  · exact ⟨by rw [s2, b1], by rw [s2, b2], x, ier, covx, fvec, ho, hd⟩
  · rw [a] at s1; simp at s1
  · rw [a] at s1; simp at s1

/-- **C97.** No fit: if none takes place (nothing in the cluster exceeds the uncertainty, no peak and none estimated), or
`ModelParts.fit` raises, or no parameter is free, the covariance object is as it was. -/
theorem c97_untouched (N : Numerics K) (hS : Sorting N) (hQ : Squares N) (G : Part K → Res (ℕ → ℕ → K)) (outF : Option String) (o : Opts)
    (c : Cluster K) (st : MC K) (hf : ProperFuncs N c.funcs) (hm : ∀ p ∈ c.model, Proper p)
    (hb : ∀ b, c.baseline = some b → 0 < b.npars false → Proper b)
    (h : ∀ c1, started (codeEnv N c) o c = some c1 → ((codeWorld N).covLsq c (fitParts o c1)).1 ≠ .ok () ∨ npars (fitParts o c1) false = 0) :
    (clusterFit N G outF o c st).2.2 = st := by
  unfold clusterFit
  simp only
  cases hs : started (codeEnv N c) o c with
  | none => rfl
  | some c1 =>
    obtain ⟨p1, p2, p3, p4, p5, p6⟩ := started_proper N hS hf hm hs
    have hpr := fitParts_proper (o := o) p1 (by rw [p2]; exact hb)
    obtain ⟨e1, e2, e3⟩ := covFitOn_eq N hQ G outF c st hpr
    apply e2
    have := h c1 hs
    rw [← e1] at this
    exact this

theorem search_top (W : World K) (J : Job K) (rec : Deeper K) :
    search W J rec true = search W J rec false >>= fitted (final W) { fitbaseline := true } := by
  unfold search searchN finish
  simp only [bind_assoc, if_true, Bool.false_eq_true, if_false, pure_bind]

/-- The cluster before the last fit. -/
theorem before_proper (N : Numerics K) (hS : Sorting N) {H : Heap K} {D : Defaults K} (hN : H.peaks D.noPeaks = [])
    (hf : ∀ i, ProperFuncs N (H.funcs i)) (hm : ∀ i, ∀ p ∈ H.peaks i, Proper p) (hb : ∀ i, Whole (H.base i))
    {s : PX K} {c : Cluster K} {x y : List K} (hr : Ready s x y) (h : beforeLast N H D s = .ok c) :
    ProperFuncs N c.funcs ∧ (∀ p ∈ c.model, Proper p) ∧ ∀ b, c.baseline = some b → 0 < b.npars false → Proper b := by
  unfold beforeLast at h
  split at h
  · simp at h
  · rename_i t hdv
    split at h
    · simp at h
    · rename_i J hJ
      have hdata := job_data hr (defaulted hdv) hJ
      have hne : J.x ≠ [] := fun h0 => search_empty h0 h
      have hfd := deeper_finds (W := codeWorld N) (n := 2) (depth := 1) hN hJ (extract_found_by (c95_sane N hS) (makes N hS) hN 2 2)
      rw [if_pos (by omega)] at hfd
      have hfound := search_found (c95_sane N hS) (makes N hS J) hfd hdata hne h
      obtain ⟨p1, b, p2, p3⟩ := found_proper N hf hm hb hJ hfound
      refine ⟨?_, p1, ?_⟩
      · obtain ⟨_, _, _, _, _, _, _, _, _, pf, _, _, -, -, -, -, -, -, -, -, -, -, rfl⟩ := jobOf_ok hJ
        exact fun f h => hf pf f (hfound.funcs f h)
      · intro b' hb' hfree
        rw [p2, Option.some.injEq] at hb'
        subst hb'
        exact p3.proper hfree

/-- **C97.** `extract_single()` returns with the cluster of C68, C85, C95 the covariance object of its last fit, to which
`c97_kept`, `c97_reverted` and `c97_untouched` apply: the parts have what these ask for. -/
theorem c97_extract (N : Numerics K) (hS : Sorting N) (hQ : Squares N) (G : Part K → Res (ℕ → ℕ → K)) (H : Heap K) (D : Defaults K) (s : PX K)
    (hN : H.peaks D.noPeaks = []) (hf : ∀ i, ProperFuncs N (H.funcs i)) (hm : ∀ i, ∀ p ∈ H.peaks i, Proper p) (hb : ∀ i, Whole (H.base i))
    {x y : List K} (hr : Ready s x y) :
    (extractCov N G H D s).map Prod.fst = extractSingle (codeWorld N) H D 3 1 s ∧
    ∀ c' st', extractCov N G H D s = .ok (c', st') → ∃ c r, beforeLast N H D s = .ok c ∧
      (ProperFuncs N c.funcs ∧ (∀ p ∈ c.model, Proper p) ∧ ∀ b, c.baseline = some b → 0 < b.npars false → Proper b) ∧
      clusterFit N G (some "default_output") { fitbaseline := true } c MC.empty = (.ok r, c', st') := by
  have hpre := fun c => before_proper N hS hN hf hm hb hr (c := c)
  constructor
  · have hx : extractSingle (codeWorld N) H D 3 1 s =
        beforeLast N H D s >>= fitted (final (codeWorld N)) { fitbaseline := true } := by
      unfold extractSingle beforeLast
      generalize defaultvars D s = dv
      obtain ⟨r, t⟩ := dv
      cases r with
      | error e => rfl
      | ok u =>
        simp only
        cases jobOf H t with
        | error e => rfl
        | ok J =>
          simp only
          exact search_top _ _ _
    rw [hx]
    unfold extractCov
    cases hb' : beforeLast N H D s with
    | error e => rfl
    | ok c =>
      obtain ⟨a1, a2, a3⟩ := hpre c hb'
      obtain ⟨s1, s2⟩ := c97_same_fit N hS hQ G (some "default_output") { fitbaseline := true } c MC.empty a1 a2 a3
      show Except.map _ (match clusterFit N G (some "default_output") { fitbaseline := true } c MC.empty with
        | (.error e, _, _) => .error e
        | (.ok _, c', st) => .ok (c', st)) = fitted (final (codeWorld N)) { fitbaseline := true } c
      unfold fitted
      generalize clusterFit N G (some "default_output") { fitbaseline := true } c MC.empty = X at s1 s2 ⊢
      generalize ModelCluster.fit ((final (codeWorld N)).env c) { fitbaseline := true } c = Y at s1 s2 ⊢
      obtain ⟨x1, x2, x3⟩ := X
      obtain ⟨y1, y2, y3⟩ := Y
      simp only at s1 s2
      subst s1 s2
      cases x1 <;> rfl
  · intro c' st' h
    unfold extractCov at h
    cases hb' : beforeLast N H D s with
    | error e => rw [hb'] at h; simp at h
    | ok c =>
      rw [hb'] at h
      simp only at h
      refine ⟨c, ?_⟩
      generalize clusterFit N G (some "default_output") { fitbaseline := true } c MC.empty = X at h ⊢
      obtain ⟨x1, x2, x3⟩ := X
      cases x1 with
      | error e => simp at h
      | ok r =>
        simp only [Except.ok.injEq, Prod.mk.injEq] at h
        obtain ⟨rfl, rfl⟩ := h
        exact ⟨r, rfl, hpre c hb', rfl⟩

/-- **C97.** `fit_single()` answers as in C72 and returns the covariance object of its fit of the initial peaks and the
baseline, to which `c97_kept`, `c97_reverted` and `c97_untouched` apply. -/
theorem c97_fit_single (N : Numerics K) (hS : Sorting N) (hQ : Squares N) (G : Part K → Res (ℕ → ℕ → K)) (D : Defaults K) (o : Obj K)
    (hf : ∀ i, ProperFuncs N (o.heap.funcs i)) (hm : ∀ i, ∀ p ∈ o.heap.peaks i, Proper p)
    (hb : ∀ i, 0 < (o.heap.base i).npars false → Proper (o.heap.base i)) :
    (∀ e, fitSingleCov N G D o = .error e → (fitSingle (codeWorld N) D o).1 = .error e) ∧
    ∀ c' st', fitSingleCov N G D o = .ok (c', st') →
      (fitSingle (codeWorld N) D o).1 = .ok () ∧ (fitSingle (codeWorld N) D o).2.extracted = some c' ∧
      ∃ t ip bl pf c r, defaultvars D o.vars = (.ok (), t) ∧ t.initialPeaks = some ip ∧ t.baseline = some (.inst bl) ∧ t.pf = some pf ∧
        c.model = o.heap.peaks ip ∧ c.baseline = some (o.heap.base bl) ∧ c.funcs = o.heap.funcs pf ∧
        clusterFit N G (some "default_output") { fitbaseline := true, estimate := false } c MC.empty = (.ok r, c', st') := by
  unfold fitSingleCov fitSingle
  generalize hdv : defaultvars D o.vars = dv
  obtain ⟨r, t⟩ := dv
  cases r with
  | error e => exact ⟨fun e' h => by simpa using h, fun _ _ h => by simp at h⟩
  | ok u =>
    simp only
    cases hJ : jobOf o.heap t with
    | error e => exact ⟨fun e' h => by simpa using h, fun _ _ h => by simp at h⟩
    | ok J =>
      obtain ⟨x, y, e, a, b, bl, ip, cres, em, pf, lo, hi, j1, j2, j3, j4, j5, j6, j7, j8, j9, j10, j11⟩ := jobOf_ok hJ
      simp only [j5, j6]
      cases hc : newCluster (codeWorld N) J J.ip (some J.bl) J.x J.y J.dy none with
      | error e => exact ⟨fun e' h => by simpa using h, fun _ _ h => by simp at h⟩
      | ok c =>
        simp only
        obtain ⟨c1, -, c3, -⟩ := newCluster_of (Q := fun _ => True) (fun _ _ => trivial) hc
        have hfun : c.funcs = J.funcs := by
          unfold newCluster at hc
          simp only at hc
          split at hc
          · simp at hc
          · rename_i heq
            obtain ⟨_, e1, -⟩ := changeSlice_ok heq
            simp only [Except.ok.injEq] at hc
            subst hc
            rw [e1]
        have hbl : c.baseline = some (o.heap.base bl) := by rw [c1.bl, j11]
        have hmo : c.model = o.heap.peaks ip := by rw [c3, j11]
        obtain ⟨s1, s2⟩ := c97_same_fit N hS hQ G (some "default_output") { fitbaseline := true, estimate := false } c MC.empty
          (by rw [hfun, j11]; exact hf pf) (by rw [hmo]; exact hm ip)
          (by rw [hbl]; intro b' h; cases h; exact hb bl)
        unfold fitted
        generalize hX : clusterFit N G (some "default_output") { fitbaseline := true, estimate := false } c MC.empty = X at s1 s2 ⊢
        generalize ModelCluster.fit ((final (codeWorld N)).env c) { fitbaseline := true, estimate := false } c = Y at s1 s2 ⊢
        obtain ⟨x1, x2, x3⟩ := X
        obtain ⟨y1, y2, y3⟩ := Y
        simp only at s1 s2
        subst s1 s2
        cases x1 with
        | error e => exact ⟨fun e' h => by simpa using h, fun _ _ h => by simp at h⟩
        | ok q =>
          refine ⟨fun e' h => by simp at h, fun c' st' h => ?_⟩
          simp only [Except.ok.injEq, Prod.mk.injEq] at h
          obtain ⟨rfl, rfl⟩ := h
          exact ⟨rfl, rfl, t, ip, bl, pf, c, q, rfl, j6, j5, j9, hmo, hbl, by rw [hfun, j11], hX⟩

/-- **C97.** If the last fit of an extraction did not take place or raised inside, or had no free parameter (`c97_untouched`
for the new object that `extract_single` and `fit_single` pass), the covariance object is undefined and its report says so. -/
theorem c97_undefined (fmt : Option ℝ → String) (N : Numerics ℝ) (hS : Sorting N) (hQ : Squares N) (G : Part ℝ → Res (ℕ → ℕ → ℝ))
    (outF : Option String) (o : Opts) (c : Cluster ℝ) (hf : ProperFuncs N c.funcs) (hm : ∀ p ∈ c.model, Proper p)
    (hb : ∀ b, c.baseline = some b → 0 < b.npars false → Proper b)
    (h : ∀ c1, started (codeEnv N c) o c = some c1 → ((codeWorld N).covLsq c (fitParts o c1)).1 ≠ .ok () ∨ npars (fitParts o c1) false = 0) :
    report fmt (clusterFit N G outF o c MC.empty).2.2 = .ok "Model and/or Covariance matrix undefined." := by
  rw [c97_untouched N hS hQ G outF o c MC.empty hf hm hb h]
  exact (c96_undefined fmt MC.empty (Or.inl rfl)).1

end Verif.Parts.Extract
