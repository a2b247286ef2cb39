import Verif.Extract.CodeModel
import Mathlib.Tactic.Linarith

/-!
# Property C95: the search with the numerics of the code

## Specification
-/

set_option linter.unusedSectionVars false

namespace Verif.Parts.Extract

open Verif.Py Verif.PeakList Verif.Parts.ModelCluster Verif.Extraction

variable {K : Type} [Field K] [LinearOrder K] [IsStrictOrderedRing K]

/-- What is to be made small: the squared deviations of the parts from the data of the cluster, in units of the
uncertainties, plus the penalty for the free parameters of the peaks. -/
def cost (N : Numerics K) (c : Cluster K) (m : List (Part K)) (b : Option (Part K)) : K :=
  deviation (curve N.val (b.toList ++ m)) (inSlice c c.r) (inSlice c c.y) (inSlice c c.err) +
    penalty (N.kind c.method) (counted m false) (inSlice c c.r).length

/-- `argsort` sorts, the last of the sorted qualities is one of them, scaling keeps the number of parameters. -/
structure Sorting (N : Numerics K) : Prop where
  sorts : SortsKeys N.as
  pick : PicksOne N.pick
  scales : Scales N.sc

/-- Estimating parameters ends with as many parameters as the function has, fit for internal use, or with
SrMiseEstimationError. -/
def Guesses (N : Numerics K) : Prop :=
  ∀ f r y, N.guess (N.func f) r y = .error .estimation ∨
    ∃ p q, N.guess (N.func f) r y = .ok p ∧ (N.func f).transform p (some "internal") (some "internal") = .ok q ∧
      q.length = (N.func f).npars

/-- Fitting at least one part ends normally or with SrMiseFitError. -/
def Fits (N : Numerics K) : Prop :=
  ∀ c m e, m ≠ [] → (Parts.fit ⟨fun _ => false, N.trunc⟩ m c.r.length false (N.opt c m).1 (N.opt c m).2).1 =
    .error e → e = .fit

/-! ## Quality -/

/-- An evaluation from what it depends on. -/
def scored (kind : Evaluator.Kind) (k : ℤ) (n : ℕ) (chi : K) : Evaluator.Ev K :=
  if k < 0 then ⟨methodName kind, false, some 0, none⟩
  else ⟨methodName kind, false, some (chi + Evaluator.parpenalty kind k
    (if (n : ℤ) < Evaluator.minpoints kind k then Evaluator.minpoints kind k else n)), some chi⟩

theorem rate_eq (N : Numerics K) (c : Cluster K) (m : List (Part K)) (b : Option (Part K)) (k : ℤ) :
    rate N c m b k = scored (N.kind c.method) ((npars m false : ℤ) + k) (inSlice c c.y).length
      (Evaluator.chiSquared ((inSlice c c.r).map (curve N.val (b.toList ++ m))) (inSlice c c.y) (inSlice c c.err)) := by
  unfold rate scored Evaluator.evaluate
  simp only [seenFit, Bool.false_eq_true, if_false]
  by_cases h : (npars m false : ℤ) + k < 0
  · rw [if_pos h, if_pos h]
  · rw [if_neg h, if_neg h]
    cases N.kind c.method <;> rfl

theorem scored_named (kind : Evaluator.Kind) (k : ℤ) (n : ℕ) (chi : K) :
    (scored kind k n chi).method = methodName kind ∧ (scored kind k n chi).higherIsBetter = false ∧
      ∃ s, (scored kind k n chi).stat = some s := by
  unfold scored
  split
  · exact ⟨rfl, rfl, _, rfl⟩
  · exact ⟨rfl, rfl, _, rfl⟩

theorem rate_named (N : Numerics K) (c : Cluster K) (m : List (Part K)) (b : Option (Part K)) (k : ℤ) :
    (rate N c m b k).method = methodName (N.kind c.method) ∧ (rate N c m b k).higherIsBetter = false ∧
      ∃ s, (rate N c m b k).stat = some s := by
  rw [rate_eq]; exact scored_named _ _ _ _

theorem penalty_eq (kind : Evaluator.Kind) (k n : ℕ) :
    (Evaluator.parpenalty kind (k : ℤ) (if (n : ℤ) < Evaluator.minpoints kind (k : ℤ) then
      Evaluator.minpoints kind (k : ℤ) else n) : K) = penalty kind k n := by
  cases kind with
  | aic => simp [Evaluator.parpenalty, penalty]
  | aicc =>
    simp only [Evaluator.parpenalty, penalty]
    have hmin : Evaluator.minpoints .aicc (k : ℤ) = (k : ℤ) + 2 := rfl
    by_cases hn : k + 2 ≤ n
    · have hn' : ¬ ((n : ℤ) < Evaluator.minpoints .aicc (k : ℤ)) := by omega
      rw [if_neg hn', if_pos hn]
      push_cast; ring
    · have hn' : (n : ℤ) < Evaluator.minpoints .aicc (k : ℤ) := by omega
      rw [if_pos hn', if_neg hn, hmin]
      push_cast
      have : ((k : K) + 2 - k - 1) = 1 := by ring
      rw [this]; ring

theorem inSlice_length {c : Cluster K} {a b : List K} (h : a.length = b.length) :
    (inSlice c a).length = (inSlice c b).length := by
  unfold inSlice
  split
  · rfl
  · exact length_getSlice_eq _ h

/-- **C95.** The quality that the search compares is the cost. -/
theorem rate_cost (N : Numerics K) {c : Cluster K} (he : Even c) (m : List (Part K)) (b : Option (Part K)) :
    (rate N c m b 0).stat = some (cost N c m b) := by
  rw [rate_eq]
  unfold scored cost
  rw [if_neg (by omega)]
  simp only [Option.some.injEq]
  rw [chiSquared_deviation, npars_counted, inSlice_length he.1]
  congr 1
  rw [show ((counted m false : ℤ) + 0) = (counted m false : ℤ) by omega]
  exact penalty_eq _ _ _

/-- **C95.** For functions of the point alone, what the search compares is what `quality` of the cluster returns. -/
theorem c95_quality (N : Numerics K) {c : Cluster K} {s : Slice} (hs : c.slice = some s) (m : List (Part K))
    (b : Option (Part K)) (h : PointwiseBy N.val (b.toList ++ m)) (k : ℤ) (hk : 0 ≤ (counted m false : ℤ) + k) :
    quality (N.kind c.method) { c with model := m, baseline := b } false k = .ok (rate N c m b k) ∧
    (Even c → (rate N c m b 0).stat = some (cost N c m b)) := by
  refine ⟨?_, fun he => rate_cost N he m b⟩
  have hv := (c94_pointwise { c with model := m, baseline := b } h).1 s hs
  have hin : ∀ l, inSlice c l = s.get l := by intro l; unfold inSlice; rw [hs]
  have hsl : sliceOf { c with model := m, baseline := b } = .ok s := by
    unfold sliceOf
    simp only [hs]
  unfold quality
  rw [hsl]
  show (clusterValue { c with model := m, baseline := b } none >>= _) = _
  rw [hv]
  have hf : fitOf { c with model := m, baseline := b } s ((s.get c.r).map (curve N.val (b.toList ++ m))) =
      seenFit N c m b := by
    unfold fitOf seenFit
    rw [hin, hin, hin]
  show (match Evaluator.evaluate (N.kind c.method) (Evaluator.new (N.kind c.method))
      (fitOf { c with model := m, baseline := b } s ((s.get c.r).map (curve N.val (b.toList ++ m)))) false k with
      | .error e => (Except.error (evalErr e) : Res (Evaluator.Ev K)) | .ok a => Except.ok a) = _
  rw [hf]
  unfold rate
  have : ∃ a, Evaluator.evaluate (N.kind c.method) (Evaluator.new (N.kind c.method)) (seenFit N c m b) false k = .ok a := by
    unfold Evaluator.evaluate
    simp only [seenFit, Bool.false_eq_true, if_false]
    rw [if_neg (by rw [npars_counted]; omega)]
    exact ⟨_, rfl⟩
  obtain ⟨a, ha⟩ := this
  rw [ha]

theorem codeEnv_comparable (N : Numerics K) (c : Cluster K) : Comparable (codeEnv N c) :=
  ⟨methodName (N.kind c.method), false, fun ps bl => by
    obtain ⟨h1, h2, s, h3⟩ := rate_named N c ps bl 0
    exact ⟨s, h1, h2, h3⟩⟩

theorem npars_perm {a b : List (Part K)} (h : a.Perm b) (f : Bool) : npars a f = npars b f := by
  rw [npars_counted, npars_counted, counted_perm h]

theorem codeEnv_perm (N : Numerics K) (c : Cluster K) : PermInvariant (codeEnv N c) := by
  intro m m' bl h
  show rate N c m bl 0 = rate N c m' bl 0
  rw [rate_eq, rate_eq, npars_perm h, curve_perm N.val (h.append_left bl.toList)]

/-- **C95.** A fit that is kept has not raised the cost of the cluster; a fit that is not kept leaves peaks and baseline as
they were. -/
theorem c95_fit (N : Numerics K) {c : Cluster K} (he : Even c) (hne : c.model ≠ []) (o : Opts) :
    (∀ q, (ModelCluster.fit (codeEnv N c) o c).1 = .ok (some q) →
      q.stat = some (cost N c (ModelCluster.fit (codeEnv N c) o c).2.1.model (ModelCluster.fit (codeEnv N c) o c).2.1.baseline) ∧
      cost N c (ModelCluster.fit (codeEnv N c) o c).2.1.model (ModelCluster.fit (codeEnv N c) o c).2.1.baseline ≤ cost N c c.model c.baseline) ∧
    ((ModelCluster.fit (codeEnv N c) o c).1 = .ok none →
      (ModelCluster.fit (codeEnv N c) o c).2.1.model = c.model ∧ (ModelCluster.fit (codeEnv N c) o c).2.1.baseline = c.baseline) := by
  obtain ⟨-, h1, h2, -⟩ := c27_fit (codeEnv N c) (codeEnv_comparable N c) o c hne
  refine ⟨fun q hq => ?_, h2⟩
  obtain ⟨e1, ⟨s, t, e2, e3, e4⟩, -, -⟩ := h1 q hq
  have hq' : q = rate N c (ModelCluster.fit (codeEnv N c) o c).2.1.model (ModelCluster.fit (codeEnv N c) o c).2.1.baseline 0 := e1
  have hst := rate_cost N he (ModelCluster.fit (codeEnv N c) o c).2.1.model (ModelCluster.fit (codeEnv N c) o c).2.1.baseline
  rw [← hq'] at hst
  have ht : (rate N c c.model c.baseline 0).stat = some t := e3
  rw [rate_cost N he, Option.some.injEq] at ht
  have hh : q.higherIsBetter = false := by rw [hq']; exact (rate_named N c _ _ 0).2.1
  rw [hh] at e4
  rw [hst, Option.some.injEq] at e2
  refine ⟨hst, ?_⟩
  rw [e2, ht]
  simpa using e4

/-- How many points the criterion needs for `k` parameters. -/
def needed : Evaluator.Kind → ℕ → ℕ
  | .aic, _ => 1
  | .aicc, k => k + 2

theorem leastNpars_least (N : Numerics K) {fs : List ℕ} (h : fs ≠ []) :
    ∃ f ∈ fs, leastNpars N fs = (N.func f).npars ∧ ∀ g ∈ fs, (N.func f).npars ≤ (N.func g).npars := by
  unfold leastNpars
  obtain ⟨a, ha⟩ : ∃ a, (fs.map (fun f => (N.func f).npars)).min? = some a := by
    cases fs with
    | nil => exact absurd rfl h
    | cons f fs => simp [List.min?]
  obtain ⟨h1, h2⟩ := List.min?_eq_some_iff.1 ha
  obtain ⟨f, hf, rfl⟩ := List.mem_map.1 h1
  rw [ha]
  exact ⟨f, hf, rfl, fun g hg => h2 _ (List.mem_map_of_mem hg)⟩

/-- **C95.** `fit(justify=True)` gives up a single peak for possible others exactly if there are enough points for the
parameters of one more peak — of the function with the fewest — and what these would cost is less than the squared
deviation. -/
theorem c95_growth (N : Numerics K) {c : Cluster K} (he : Even c) (hf : c.funcs ≠ []) (m : List (Part K)) (b : Option (Part K)) :
    ∃ f ∈ c.funcs, (∀ g ∈ c.funcs, (N.func f).npars ≤ (N.func g).npars) ∧
      ((codeEnv N c).growth m b = true ↔
        needed (N.kind c.method) (counted m false + (N.func f).npars) ≤ (inSlice c c.r).length ∧
        (penalty (N.kind c.method) (counted m false + (N.func f).npars) (inSlice c c.r).length -
          penalty (N.kind c.method) (counted m false) (inSlice c c.r).length : K) <
            deviation (curve N.val (b.toList ++ m)) (inSlice c c.r) (inSlice c c.y) (inSlice c c.err)) := by
  obtain ⟨f, hf1, hf2, hf3⟩ := leastNpars_least N hf
  refine ⟨f, hf1, hf3, ?_⟩
  show grows N c m b = true ↔ _
  unfold grows
  rw [rate_eq, hf2]
  have hk : ¬ ((npars m false : ℤ) + 0 < 0) := by omega
  unfold scored
  rw [if_neg hk, chiSquared_deviation]
  have hlen := inSlice_length (c := c) he.1
  unfold Evaluator.growthJustified
  simp only [seenFit, Evaluator.chisqOf, Evaluator.Fit.size, npars_counted, hlen]
  generalize (inSlice c c.r).length = n
  generalize counted m false = k
  generalize (N.func f).npars = j
  generalize deviation (K := K) _ _ _ _ = D
  have e1 := penalty_eq (K := K) (N.kind c.method) (k + j) n
  have e2 := penalty_eq (K := K) (N.kind c.method) k n
  have hmin : ∀ k : ℕ, Evaluator.minpoints (N.kind c.method) (k : ℤ) = (needed (N.kind c.method) k : ℤ) := by
    intro k; cases N.kind c.method <;> rfl
  have hmono : needed (N.kind c.method) k ≤ needed (N.kind c.method) (k + j) := by
    cases N.kind c.method <;> simp [needed]
  rw [← Nat.cast_add, hmin, hmin]
  rw [hmin] at e1 e2
  by_cases hn : needed (N.kind c.method) (k + j) ≤ n
  · rw [if_neg (by omega)] at e1 e2 ⊢
    rw [if_neg (by omega)]
    rw [e1, e2]
    simp [hn]
  · rw [if_pos (by omega)]
    simp [hn]

/-! ## Pruning -/

theorem get_all {α : Type} (l : List α) (n : ℕ) (h : l.length ≤ n) : Slice.get ⟨none, n⟩ l = l := by
  unfold Slice.get getSlice bounds
  simp only [Option.getD_none, Nat.zero_min, List.drop_zero]
  rw [List.take_of_length_le (by omega)]

theorem chi_shift (f g : K → K) : ∀ (r y e : List K),
    Evaluator.chiSquared (r.map f) (List.zipWith (fun x y => y - g x) r y) e =
      Evaluator.chiSquared (r.map (fun x => g x + f x)) y e
  | [], _, _ => by simp [Evaluator.chiSquared]
  | _ :: _, [], _ => by simp [Evaluator.chiSquared]
  | _ :: _, _ :: _, [] => by simp [Evaluator.chiSquared]
  | x :: r, a :: y, d :: e => by
    simp only [List.map_cons, List.zipWith_cons_cons, Evaluator.chiSquared, chi_shift f g r y e]
    congr 3
    ring

/-- The quality on the data that are left without some of the peaks is that of the whole: all peaks, on all the data. -/
theorem prune_rate (N : Numerics K) (c : Cluster K) (out m : List (Part K)) (k : ℤ) :
    rate N (pruneCluster N c out) m none k = scored (N.kind c.method) ((npars m false : ℤ) + k)
      (min (inSlice c c.r).length (inSlice c c.y).length)
      (Evaluator.chiSquared ((inSlice c c.r).map (curve N.val (c.baseline.toList ++ out ++ m))) (inSlice c c.y)
        (inSlice c c.err)) := by
  rw [rate_eq]
  generalize hr : inSlice c c.r = r
  generalize hy : inSlice c c.y = y
  generalize hE : inSlice c c.err = e
  have h1 : inSlice (pruneCluster N c out) (pruneCluster N c out).r = r := by
    show Slice.get ⟨none, (inSlice c c.r).length⟩ (inSlice c c.r) = r
    rw [get_all _ _ (le_refl _), hr]
  have h2 : inSlice (pruneCluster N c out) (pruneCluster N c out).y =
      List.zipWith (fun x y => y - curve N.val (c.baseline.toList ++ out) x) r y := by
    show Slice.get ⟨none, (inSlice c c.r).length⟩ (List.zipWith _ (inSlice c c.r) (inSlice c c.y)) = _
    rw [get_all _ _ (by simp), hr, hy]
  have h3 : inSlice (pruneCluster N c out) (pruneCluster N c out).err = e.take r.length := by
    show Slice.get ⟨none, (inSlice c c.r).length⟩ (inSlice c c.err) = _
    rw [hr, hE]
    unfold Slice.get getSlice bounds
    simp only [Option.getD_none, Nat.zero_min, List.drop_zero]
    rw [Nat.max_eq_right (Nat.zero_le _), Nat.sub_zero]
    by_cases h : r.length ≤ e.length
    · rw [Nat.min_eq_left h]
    · rw [Nat.min_eq_right (by omega), List.take_length, List.take_of_length_le (by omega)]
  rw [h1, h2, h3]
  have hchi : ∀ (a b d : List K), Evaluator.chiSquared a b (d.take a.length) = Evaluator.chiSquared a b d := by
    intro a
    induction a with
    | nil => intro b d; simp [Evaluator.chiSquared]
    | cons v a ih =>
      intro b d
      cases b with
      | nil => simp [Evaluator.chiSquared]
      | cons w b =>
        cases d with
        | nil => simp [Evaluator.chiSquared]
        | cons z d => simp [Evaluator.chiSquared, ih]
  have hlen : (r.map (curve N.val ((none : Option (Part K)).toList ++ m))).length = r.length := by simp
  conv_lhs => rw [← hlen, hchi]
  rw [chi_shift]
  have hcur : (fun x => curve N.val (c.baseline.toList ++ out) x + curve N.val ((none : Option (Part K)).toList ++ m) x) =
      curve N.val (c.baseline.toList ++ out ++ m) := by
    funext x
    rw [curve_append N.val (c.baseline.toList ++ out) m]
    rfl
  rw [hcur, List.length_zipWith]
  rfl

/-- **C95.** `prune` judges a removal by the quality of the whole remaining model on all data: setting the distant peaks aside
and shifting the number of parameters comes to the same. -/
theorem c95_honest (N : Numerics K) (c : Cluster K) : Honest ((codeWorld N).pruneEnv c) where
  cmp := ⟨methodName (N.kind c.method), false, fun out m k => by
    obtain ⟨h1, h2, s, h3⟩ := rate_named N (pruneCluster N c out) m none k
    exact ⟨s, h1, h2, h3⟩⟩
  env _ _ _ := rfl
  add l m r := by
    show rate N (pruneCluster N c (l ++ r)) m none ((npars (l ++ r) false : ℕ) : ℤ) = rate N (pruneCluster N c []) (l ++ m ++ r) none 0
    rw [prune_rate, prune_rate]
    have hp : (l ++ r ++ m).Perm (l ++ m ++ r) := by
      rw [List.append_assoc, List.append_assoc]
      exact List.Perm.append_left l List.perm_append_comm
    have hn : (npars m false : ℤ) + (npars (l ++ r) false : ℕ) = (npars (l ++ m ++ r) false : ℕ) + 0 := by
      rw [← npars_perm hp false, npars_counted, npars_counted, npars_counted, counted_append (l ++ r)]
      push_cast; ring
    have hc : curve N.val (c.baseline.toList ++ (l ++ r) ++ m) = curve N.val (c.baseline.toList ++ [] ++ (l ++ m ++ r)) := by
      rw [List.append_nil, List.append_assoc]
      exact curve_perm N.val (hp.append_left _)
    rw [hn, hc]

/-- The number of parameters `prune` adds is never negative: the evaluator never raises. -/
theorem c95_shift (best : List (Part K)) (i : ℕ) (p : Part K) (hp : best[i]? = some p)
    (hle : p.free.count true ≤ p.owner.npars) : 0 ≤ addpars best i := by
  have hi : i < best.length := (List.getElem?_eq_some_iff.1 hp).1
  have e1 := npars_eraseIdx best i p hp true
  have e2 : p.npars false ≤ p.npars true := hle
  rw [← segments best i hi, npars_append, npars_append] at e1
  unfold addpars
  rw [hp]
  simp only [Option.map_some, Option.getD_some]
  omega

/-- With no peak set aside the auxiliary cluster of `prune` rates like the cluster itself. -/
theorem c95_prune_start (N : Numerics K) {c : Cluster K} (he : Even c) (m : List (Part K)) (k : ℤ) :
    ((codeWorld N).pruneEnv c).qual [] m k = rate N c m c.baseline k := by
  show rate N (pruneCluster N c []) m none k = _
  rw [prune_rate, rate_eq, List.append_nil, ← inSlice_length he.1, Nat.min_self]

theorem gt_lower {a b : Evaluator.Ev K} {s t : K} (hs : a.stat = some s) (ht : b.stat = some t)
    (hh : a.higherIsBetter = false) (h : Evaluator.gt a b = .ok true) : s < t := by
  unfold Evaluator.gt Evaluator.guard2 at h
  rw [hs, ht] at h
  split at h
  · simp [bind, Except.bind] at h
  · simpa [bind, Except.bind, pure, Except.pure, hh] using h

/-- **C95.** `prune` leaves the peaks as they are, or what is left has a smaller cost — if its fits converge, to something
not worse (see `c29_can_get_worse`), and all parameters are free (see `c29_fixed_parameters_counted`). -/
theorem c95_prune (N : Numerics K) (hS : Sorting N) {c : Cluster K} (he : Even c)
    (mc : Cluster K) (m : List (Part K)) (hC : Converges ((codeWorld N).pruneEnv c) m) (ha : ∀ p ∈ m, AllFree p) :
    (prune ((codeWorld N).pruneEnv c) N.pick mc m).2 = m ∨
    cost N c (prune ((codeWorld N).pruneEnv c) N.pick mc m).2 c.baseline < cost N c m c.baseline := by
  have hT : ∀ out, Tame (((codeWorld N).pruneEnv c).env out) := fun out =>
    c69_actual_fit_tame _ hS.sorts ⟨fun _ => false, N.trunc⟩ (pruneCluster N c out).r.length
      false (fun m => (N.opt (pruneCluster N c out) m).1) (fun m => (N.opt (pruneCluster N c out) m).2) rfl
      ((inSlice (pruneCluster N c out) (pruneCluster N c out).r).headD 0)
      ((inSlice (pruneCluster N c out) (pruneCluster N c out).r).getLastD 0) (feeble N (pruneCluster N c out)) (fun _ => rfl)
  rcases c29_prune_improves _ hT (c95_honest N c) N.pick mc m hC ha with h | h
  · exact Or.inl h
  · right
    rw [c95_prune_start N he, c95_prune_start N he] at h
    exact gt_lower (rate_cost N he _ _) (rate_cost N he _ _) (rate_named N c _ _ 0).2.1 h

/-! ## The search -/

theorem code_tame (N : Numerics K) (hS : Sorting N) (c : Cluster K) : Tame (codeEnv N c) :=
  c69_actual_fit_tame _ hS.sorts ⟨fun _ => false, N.trunc⟩ c.r.length
    false (fun m => (N.opt c m).1) (fun m => (N.opt c m).2) rfl
    ((inSlice c c.r).headD 0) ((inSlice c c.r).getLastD 0) (feeble N c) (fun _ => rfl)

theorem code_ctame (N : Numerics K) (hS : Sorting N) (c : Cluster K) : Tame ((final (codeWorld N)).env c) :=
  c69_actual_fit_tame _ hS.sorts ⟨fun _ => false, N.trunc⟩ c.r.length
    true (fun m => (N.opt c m).1) (fun m => (N.opt c m).2) rfl
    ((inSlice c c.r).headD 0) ((inSlice c c.r).getLastD 0) (feeble N c) (fun _ => rfl)

theorem lt_lower {a b : Evaluator.Ev K} {s t : K} (hs : a.stat = some s) (ht : b.stat = some t)
    (hh : a.higherIsBetter = false) (h : Evaluator.lt a b = .ok false) : s ≤ t := by
  unfold Evaluator.lt Evaluator.guard2 at h
  rw [hs, ht] at h
  split at h
  · simp [bind, Except.bind] at h
  · simpa [bind, Except.bind, pure, Except.pure, hh] using h

/-- **C95.** `augment` does not raise the cost — if its fits converge, to something not worse, all peaks are removable, and
`argsort()[-1]` finds a best quality. -/
theorem c95_augment (N : Numerics K) (hS : Sorting N) (hP : PicksBest N.pick) {c : Cluster K} (he : Even c)
    (source : List (Part K)) (hC : EConverges (codeEnv N c) (c.model ++ source))
    (hrem : ∀ p ∈ c.model ++ source, p.removable = true) (hest : guessed N c = .error .estimation) :
    (augment (codeEnv N c) N.pick c source).1 = .ok () ∧
    cost N c (augment (codeEnv N c) N.pick c source).2.model c.baseline ≤ cost N c c.model c.baseline := by
  obtain ⟨h1, -, h3⟩ := c60_augment_greedy (codeEnv N c) (code_tame N hS c) (codeEnv_comparable N c) (codeEnv_perm N c) hP c
    source hC hrem (Or.inl hest)
  exact ⟨h1, lt_lower (rate_cost N he _ _) (rate_cost N he _ _) (rate_named N c _ _ 0).2.1 h3⟩

/-- **C95.** What C67–C73 ask of the numerics holds of the numerics of the code. -/
theorem c95_sane (N : Numerics K) (hS : Sorting N) : Sane (codeWorld N) where
  sorts := hS.sorts
  scales := hS.scales
  tame := code_tame N hS
  ptame c out := by
    have := code_tame N hS (pruneCluster N c out)
    exact ⟨this.sorts, this.frame, this.clean, this.hard⟩
  ctame := code_ctame N hS

/-- **C95.** An estimated peak belongs to a supplied function, is removable, and all its parameters are free. -/
theorem c95_estimates (N : Numerics K) : Estimates (codeWorld N) ∧
    ∀ c p, (codeEnv N c).estimate = .ok (some p) → AllFree p ∧ p.pars.length = p.owner.npars := by
  have key : ∀ c p, guessed N c = .ok (some p) → (∃ f ∈ c.funcs, p.owner = N.func f) ∧ p.removable = true ∧
      (AllFree p ∧ p.pars.length = p.owner.npars) ∧ p.staticOwner = false ∧ p.free = List.replicate p.owner.npars true ∧
        p.isInt = false := by
    intro c p h
    unfold guessed at h
    split at h
    · simp at h
    · rename_i f fs hf
      obtain ⟨g, -, h⟩ := bind_ok h
      obtain ⟨q, -, h⟩ := bind_ok h
      obtain ⟨p', hp, h⟩ := bind_ok h
      simp only [pure, Except.pure, Except.ok.injEq, Option.some.injEq] at h
      subst h
      unfold Part.new at hp
      split at hp
      · simp at hp
      · rename_i hlen
        simp only [ne_eq, List.length_map] at hp hlen
        rw [if_neg (by simpa using hlen)] at hp
        simp only [Except.ok.injEq] at hp
        subst hp
        have hlen' : q.length = (N.func f).npars := by simpa using hlen
        refine ⟨⟨f, by simp [hf], rfl⟩, rfl, ⟨?_, hlen'⟩, rfl, ?_, rfl⟩
        · unfold AllFree
          simp only
          rw [List.map_const', List.count_replicate_self]
          exact hlen'
        · simp only
          rw [List.map_const', hlen']
  refine ⟨?_, fun c p h => (key c p h).2.2.1⟩
  intro c p h
  obtain ⟨⟨f, hf, ho⟩, h2, ⟨-, h3⟩, h4, h5, h6⟩ := key c p h
  exact ⟨⟨f, hf, ho⟩, h2, h4, h5, fun _ => ⟨h3, h6⟩⟩

theorem guessed_ends (N : Numerics K) (hG : Guesses N) (c : Cluster K) :
    guessed N c = .error .estimation ∨ ∃ p, guessed N c = .ok (some p) := by
  unfold guessed
  split
  · exact Or.inl rfl
  · rename_i f fs hf
    rcases hG f (inSlice c c.r)
      (List.zipWith (fun x y => y - curve N.val c.baseline.toList x) (inSlice c c.r) (inSlice c c.y)) with h | ⟨p, q, h1, h2, h3⟩
    · left; rw [h]; rfl
    · right
      refine ⟨⟨N.func f, q, q.map (fun _ => true), true, false, false⟩, ?_⟩
      rw [h1]
      show ((N.func f).transform p (some "internal") (some "internal") >>= _) = _
      rw [h2]
      show (Part.new (N.func f) q none true false false >>= _) = _
      have : Part.new (N.func f) q none true false false = .ok ⟨N.func f, q, q.map (fun _ => true), true, false, false⟩ := by
        unfold Part.new
        simp [h3]
      rw [this]
      rfl

theorem lsq_fit (N : Numerics K) (hF : Fits N) (c : Cluster K) (m : List (Part K)) (e : Err) (hm : m ≠ [])
    (h : ((codeEnv N c).lsq m).1 = .error e) : e = .fit := by
  refine hF c m e hm ?_
  have h' : ((Parts.fit ⟨fun _ => false, N.trunc⟩ m c.r.length false (N.opt c m).1 (N.opt c m).2).1.map
    (fun _ => ())) = .error e := h
  revert h'
  cases (Parts.fit ⟨fun _ => false, N.trunc⟩ m c.r.length false (N.opt c m).1 (N.opt c m).2).1 with
  | error e' => intro h; simpa [Except.map] using h
  | ok v => intro h; simp [Except.map] at h

/-- Asking for the covariance makes a difference in one case only: if it does not exist, a fit that would have succeeded
raises TypeError. -/
theorem fit_cov (F : Flt K) (ps : List (Part K)) (nr : ℕ) (l1 l2 : Lsq K) :
    (Parts.fit F ps nr true l1 l2).2 = (Parts.fit F ps nr false l1 l2).2 ∧
    ((∀ e, (Parts.fit F ps nr false l1 l2).1 = .error e → (Parts.fit F ps nr true l1 l2).1 = .error e) ∧
     ((Parts.fit F ps nr false l1 l2).1.isOk → (Parts.fit F ps nr true l1 l2).1.isOk ∨ (Parts.fit F ps nr true l1 l2).1 = .error .type)) := by
  have hfin : ∀ ps' n x ier c f, (finishFit F ps' nr n true x ier c f).2 = (finishFit F ps' nr n false x ier c f).2 ∧
      ((∀ e, (finishFit F ps' nr n false x ier c f).1 = .error e → (finishFit F ps' nr n true x ier c f).1 = .error e) ∧
       ((finishFit F ps' nr n false x ier c f).1.isOk → (finishFit F ps' nr n true x ier c f).1.isOk ∨
         (finishFit F ps' nr n true x ier c f).1 = .error .type)) := by
    intro ps' n x ier c f
    unfold finishFit
    cases pack F ps' x with
    | mk a b =>
      cases a with
      | error e => simp [Except.isOk, Except.toBool]
      | ok u =>
        simp only
        split
        · simp [Except.isOk, Except.toBool]
        · cases cleanup b with
          | mk a' b' =>
            cases a' with
            | error e => simp [Except.isOk, Except.toBool]
            | ok u' =>
              cases c with
              | none => simp
              | some c => simp [Except.isOk, Except.toBool]
  unfold Parts.fit
  split
  · simp [Except.isOk, Except.toBool]
  · split
    · simp [Except.isOk, Except.toBool]
    split
    · simp [Except.isOk, Except.toBool]
    split
    · exact hfin _ _ _ _ _ _
    · split
      · exact hfin _ _ _ _ _ _
      · simp [Except.isOk, Except.toBool]
    · simp [Except.isOk, Except.toBool]

theorem covLsq_ends (N : Numerics K) (hF : Fits N) (c : Cluster K) (m : List (Part K)) (e : Err) (hm : m ≠ [])
    (h : ((codeWorld N).covLsq c m).1 = .error e) : e = .fit ∨ e = .type := by
  have h' : ((Parts.fit ⟨fun _ => false, N.trunc⟩ m c.r.length true (N.opt c m).1 (N.opt c m).2).1.map
    (fun _ => ())) = .error e := h
  obtain ⟨-, h1, h2⟩ := fit_cov ⟨fun _ => false, N.trunc⟩ m c.r.length (N.opt c m).1 (N.opt c m).2
  have h3 := hF c m
  revert h' h1 h2 h3
  generalize (Parts.fit ⟨fun _ => false, N.trunc⟩ m c.r.length true (N.opt c m).1 (N.opt c m).2).1 = T
  generalize (Parts.fit ⟨fun _ => false, N.trunc⟩ m c.r.length false (N.opt c m).1 (N.opt c m).2).1 = U
  intro h' h1 h2 h3
  cases T with
  | ok v => simp [Except.map] at h'
  | error e' =>
    simp only [Except.map, Except.error.injEq] at h'
    subst h'
    cases U with
    | error e2 =>
      have := h1 e2 rfl
      simp only [Except.error.injEq] at this
      left
      rw [this]
      exact h3 e2 hm rfl
    | ok v =>
      rcases h2 rfl with h | h
      · simp [Except.isOk, Except.toBool] at h
      · right; simpa using h

theorem sameBase_refl (b : Part K) : sameBase (some b) (some b) = true := by
  simp [sameBase, Part.beq]

/-- **C95.** What C85 asks of the numerics holds of the numerics of the code, if estimates and fits end as they should. -/
theorem c95_calm (N : Numerics K) (hS : Sorting N) (hG : Guesses N) (hF : Fits N) : Calm (codeWorld N) where
  sorts c := ⟨hS.sorts, fun _ => hS.sorts⟩
  fit c m e hm h := lsq_fit N hF c m e hm h
  pfit c out m e hm h := lsq_fit N hF (pruneCluster N c out) m e hm h
  cfit c m e hm h := covLsq_ends N hF c m e hm h
  est c := guessed_ends N hG c
  rated k := by
    refine ⟨methodName (N.kind k), fun c hc => ⟨fun m b => ?_, fun out m => ⟨fun _ => ?_, fun i => ?_⟩⟩⟩
    · obtain ⟨h1, -, h3⟩ := rate_named N c m b 0
      exact ⟨by rw [← hc]; exact h1, h3⟩
    · obtain ⟨h1, -, h3⟩ := rate_named N (pruneCluster N c out) m none 0
      exact ⟨by rw [← hc]; exact h1, h3⟩
    · obtain ⟨h1, -, h3⟩ := rate_named N (pruneCluster N c out) m none i
      exact ⟨by rw [← hc]; exact h1, h3⟩
  pick := hS.pick
  eqv := sameBase_refl

/-! ### When fits end as they should -/

/-- The optimiser evaluates at, and returns, as many numbers as there are free parameters. -/
structure Shaped (l : Lsq K) (n : ℕ) : Prop where
  trace : ∀ v ∈ l.trace, v.length = n
  found : ∀ x ier c f, l.outcome = .done x ier c f → x.length = n

theorem packLoop_ok (F : Flt K) : ∀ (ps : List (Part K)) (v : List K), npars ps false ≤ v.length →
    (packLoop F ps v).1 = .ok ()
  | [], _, _ => rfl
  | p :: ps, v, h => by
    have hn : npars (p :: ps) false = p.npars false + npars ps false := by simp [npars]
    have hu : p.update F v = (.ok (p.npars false),
        { p with pars := assignMask p.pars p.free ((v.take (p.npars false)).map (fun v => if p.isInt then F.trunc v else v)) }) := by
      unfold Part.update
      simp only
      rw [if_pos (by simp; omega)]
    unfold packLoop
    rw [hu]
    exact packLoop_ok F ps (v.drop (p.npars false)) (by simp; omega)

theorem pack_ok (T : K → K) (ps : List (Part K)) (v : List K) (h : v.length = npars ps false) :
    ∃ ps', pack ⟨fun _ => false, T⟩ ps v = (.ok (), ps') ∧ npars ps' false = npars ps false := by
  have h1 := packLoop_ok ⟨fun _ => false, T⟩ ps v (by omega)
  have h2 := frames_of_same (c15_pack_keeps_fixed ⟨fun _ => false, T⟩ ps v)
  have h3 : ∀ a b : List (Part K), List.Forall₂ Frame a b → npars b false = npars a false := by
    intro a b h
    induction h with
    | nil => rfl
    | cons h _ ih =>
      unfold npars at ih ⊢
      simp only [List.map_cons, List.sum_cons, ih]
      simp only [Part.npars, Bool.false_eq_true, if_false, h.free]
  refine ⟨(pack ⟨fun _ => false, T⟩ ps v).2, ?_, h3 _ _ h2⟩
  have : pack ⟨fun _ => false, T⟩ ps v = packLoop ⟨fun _ => false, T⟩ ps v := by
    unfold pack; simp
  rw [this] at *
  exact Prod.ext h1 rfl

theorem runTrace_ok (T : K → K) : ∀ (vs : List (List K)) (ps : List (Part K)), (∀ v ∈ vs, v.length = npars ps false) →
    ∃ ps', runTrace ⟨fun _ => false, T⟩ ps vs = (.ok (), ps') ∧ npars ps' false = npars ps false
  | [], ps, _ => ⟨ps, rfl, rfl⟩
  | v :: vs, ps, h => by
    obtain ⟨ps1, h1, h2⟩ := pack_ok T ps v (h v List.mem_cons_self)
    obtain ⟨ps2, h3, h4⟩ := runTrace_ok T vs ps1 (fun w hw => by rw [h2]; exact h w (List.mem_cons_of_mem _ hw))
    refine ⟨ps2, ?_, h4.trans h2⟩
    unfold runTrace
    rw [h1]
    exact h3

theorem cleanup_ok : ∀ ps : List (Part K), (∀ p ∈ ps, ∃ q, p.owner.transform p.pars (some "internal") (some "internal") = .ok q) →
    (cleanup ps).1 = .ok ()
  | [], _ => rfl
  | p :: ps, h => by
    obtain ⟨q, hq⟩ := h p List.mem_cons_self
    unfold cleanup
    rw [hq]
    exact cleanup_ok ps (fun p hp => h p (List.mem_cons_of_mem _ hp))

theorem runLsq_ok (T : K → K) {ps : List (Part K)} {l : Lsq K} (hl : Shaped l (npars ps false)) :
    ∃ ps', npars ps' false = npars ps false ∧ List.Forall₂ SameButFree ps ps' ∧
      ((∃ x ier c f, l.outcome = .done x ier c f ∧ runLsq ⟨fun _ => false, T⟩ ps l = (.ok (x, ier, c, f), ps')) ∨
       ∃ e, l.outcome = .raises e ∧ runLsq ⟨fun _ => false, T⟩ ps l = (.error e, ps')) := by
  obtain ⟨ps', h1, h2⟩ := runTrace_ok T l.trace ps hl.trace
  have hf := runLsq_same ⟨fun _ => false, T⟩ ps l
  cases ho : l.outcome with
  | raises e =>
    have : runLsq ⟨fun _ => false, T⟩ ps l = (.error e, ps') := by unfold runLsq; rw [h1, ho]
    rw [this] at hf
    exact ⟨ps', h2, hf, Or.inr ⟨e, rfl, this⟩⟩
  | done x ier c f =>
    have : runLsq ⟨fun _ => false, T⟩ ps l = (.ok (x, ier, c, f), ps') := by unfold runLsq; rw [h1, ho]
    rw [this] at hf
    exact ⟨ps', h2, hf, Or.inl ⟨x, ier, c, f, rfl, this⟩⟩

/-- The functions accept what the optimiser found. -/
def Accepted (l : Lsq K) (m : List (Part K)) : Prop :=
  ∀ x ier c f, l.outcome = .done x ier c f → ier ∈ [1, 2, 3, 4] →
    ∀ p ∈ m, ∀ v, v.length = p.pars.length → ∃ q, p.owner.transform v (some "internal") (some "internal") = .ok q

theorem finishFit_ends (T : K → K) {ps0 ps : List (Part K)} (hfr : List.Forall₂ SameButFree ps0 ps) (nr n : ℕ) {x : List K}
    (hx : x.length = npars ps false) (ier : ℤ) (c : Option (List (List K))) (f : List K)
    (ht : ier ∈ [1, 2, 3, 4] → ∀ p ∈ ps0, ∀ v, v.length = p.pars.length → ∃ q, p.owner.transform v (some "internal") (some "internal") = .ok q)
    {e : Err} (h : (finishFit ⟨fun _ => false, T⟩ ps nr n false x ier c f).1 = .error e) : e = .fit := by
  obtain ⟨ps', hp, -⟩ := pack_ok T ps x hx
  have hfr' := forall₂_trans hfr (c15_pack_keeps_fixed ⟨fun _ => false, T⟩ ps x)
  rw [hp] at hfr'
  simp only at hfr'
  unfold finishFit at h
  rw [hp] at h
  simp only at h
  by_cases hi : ier ∉ [1, 2, 3, 4]
  · rw [if_pos hi] at h
    simpa using h.symm
  · rw [if_neg hi] at h
    have hcl : (cleanup ps').1 = .ok () := by
      refine cleanup_ok ps' ?_
      have : ∀ p ∈ ps', ∃ p0 ∈ ps0, p.owner = p0.owner ∧ p.pars.length = p0.pars.length := by
        intro p hp
        obtain ⟨i, hi, rfl⟩ := List.mem_iff_getElem.1 hp
        have hlen := hfr'.length_eq
        refine ⟨ps0[i], List.getElem_mem _, ?_⟩
        have := (List.forall₂_iff_get.1 hfr').2 i (by omega) hi
        exact ⟨this.owner, this.length⟩
      intro p hp
      obtain ⟨p0, h0, ho, hl⟩ := this p hp
      rw [ho]
      exact ht (not_not.1 hi) p0 h0 _ hl
    obtain ⟨ps'', hc⟩ : ∃ ps'', cleanup ps' = (.ok (), ps'') := ⟨_, Prod.ext hcl rfl⟩
    rw [hc] at h
    simp at h

/-- **C95.** Fits end normally or with SrMiseFitError if the optimiser returns vectors of the right length and the functions
accept what it found; the second attempt — without Jacobian — must not raise.  (The first may: that is
SrMiseFitError.) -/
theorem c95_fits (N : Numerics K)
    (h1 : ∀ c m, m ≠ [] → Shaped (N.opt c m).1 (npars m false) ∧ Accepted (N.opt c m).1 m)
    (h2 : ∀ c m, m ≠ [] → (N.opt c m).1.outcome = .raises .notImplemented → Shaped (N.opt c m).2 (npars m false) ∧
      Accepted (N.opt c m).2 m ∧ ∀ e, (N.opt c m).2.outcome = .raises e → e = .fit) : Fits N := by
  intro c m e hm h
  obtain ⟨hs, ha⟩ := h1 c m hm
  unfold Parts.fit unpack at h
  rw [if_neg hm] at h
  simp only at h
  split at h
  · simpa using h.symm
  split at h
  · simp at h
  obtain ⟨ps', hn, hf, ⟨x, ier, cv, f, ho, hr⟩ | ⟨e', ho, hr⟩⟩ := runLsq_ok N.trunc hs
  · rw [hr] at h
    simp only at h
    exact finishFit_ends N.trunc hf _ _ (by rw [hn]; exact hs.found _ _ _ _ ho) ier cv f (ha _ _ _ _ ho) h
  · rw [hr] at h
    by_cases he : e' = .notImplemented
    · subst he
      simp only at h
      obtain ⟨hs2, ha2, hr2⟩ := h2 c m hm ho
      obtain ⟨ps2, hn2, hf2, ⟨x, ier, cv, f, ho2, hq⟩ | ⟨e2, ho2, hq⟩⟩ := runLsq_ok N.trunc (ps := ps') (l := (N.opt c m).2) (by rw [hn]; exact hs2)
      · rw [hq] at h
        simp only at h
        exact finishFit_ends N.trunc (forall₂_trans hf hf2) _ _ (by rw [hn2, hn]; exact hs2.found _ _ _ _ ho2) ier cv f (ha2 _ _ _ _ ho2) h
      · rw [hq] at h
        simp only [Except.error.injEq] at h
        rw [← h]; exact hr2 e2 ho2
    · split at h
      · rename_i hh; simp at hh
      · rename_i hh
        simp only [Prod.mk.injEq, Except.error.injEq] at hh
        exact absurd hh.1 he
      · simpa using h.symm

variable {H : Heap K} {D : Defaults K}

theorem inSlice_whole {c : Cluster K} {sl : Slice} (hs : c.slice = some sl) (hr : sl.get c.r = c.r) {l : List K}
    (hl : l.length = c.r.length) : inSlice c l = l := by
  unfold inSlice
  rw [hs]
  refine (getSlice_sublist l _).eq_of_length ?_
  have h1 : (sl.get l).length = (sl.get c.r).length := length_getSlice_eq _ hl
  rw [hr] at h1
  exact h1.trans hl.symm

theorem result_even {W : World K} (hS : Sane W) (hE : Estimates W) (hN : H.peaks D.noPeaks = []) {n depth : ℕ} {s t : PX K}
    {c : Cluster K} {x y : List K} (hr : Ready s x y) (h : extractSingle W H D n depth s = .ok c)
    (ht : defaultvars D s = (.ok (), t)) (hres : Result D H s t x y depth c) : Even c := by
  obtain ⟨t', J, ht', hJ, hd, hne, -⟩ := extract_found hS hE hN n depth s c x y hr h
  rw [ht, Prod.mk.injEq] at ht'
  obtain ⟨-, rfl⟩ := ht'
  obtain ⟨x0, x1, e, h0, h1, he, d1, d2, d3⟩ := job_range hr ht hJ hne
  obtain ⟨x0', x1', e', h0', h1', he', c1, c2, c3⟩ := hres.data
  rw [h0, Option.some.injEq] at h0'
  rw [h1, Option.some.injEq] at h1'
  subst h0' h1'
  rw [he] at he'
  have : e = e' := by simpa using he'
  subst this
  exact ⟨by rw [c2, c1, ← d1, ← d2]; exact hd.leny, by rw [c3, c1, ← d1, ← d3]; exact hd.lene⟩

/-- **C95.** Extraction with the numerics of the code: either ValueError (see `c85_stray`), or TypeError (see `c95_singular`), or one cluster over exactly
the data of the range; its peaks are initial peaks or belong to the supplied functions; its quality is the squared deviation
of peaks and baseline from all these data plus the penalty for the free parameters of the peaks. -/
theorem c95_search (N : Numerics K) (hS : Sorting N) (hG : Guesses N) (hF : Fits N) (hN : H.peaks D.noPeaks = [])
    {s : PX K} {x y : List K} (hu : Usable D H s x y) :
    extractSingle (codeWorld N) H D 3 1 s = .error .value ∨ extractSingle (codeWorld N) H D 3 1 s = .error .type ∨
    ∃ c t pf, extractSingle (codeWorld N) H D 3 1 s = .ok c ∧ defaultvars D s = (.ok (), t) ∧ Result D H s t x y 1 c ∧
      t.pf = some pf ∧
      (∀ p ∈ c.model, New N.func (H.funcs pf) p ∨
        ∃ q ∈ H.peaks (s.initialPeaks.getD D.noPeaks), SamePeak p q) ∧
      (rate N c c.model c.baseline 0).stat = some (deviation (curve N.val (c.baseline.toList ++ c.model)) c.r c.y c.err +
        penalty (N.kind c.method) (counted c.model false) c.r.length) := by
  have hSa := c95_sane N hS
  have hEs := (c95_estimates N).1
  rcases c85_only_value_error hSa (c95_calm N hS hG hF) hEs hN hu with ⟨c, h⟩ | h | ⟨-, h⟩
  · right; right
    obtain ⟨t, ht, hres⟩ := c68_whole_range hSa hEs hN hu.ready h
    obtain ⟨t', pf, ip, ht', hpf, -, rfl, hpr, -⟩ := c69_provenance hSa hEs hN hu.ready h
    rw [ht, Prod.mk.injEq] at ht'
    obtain ⟨-, rfl⟩ := ht'
    have he := result_even hSa hEs hN hu.ready h ht hres
    obtain ⟨sl, hsl, hw, -⟩ := hres.whole
    refine ⟨c, t, pf, h, ht, hres, hpf, hpr, ?_⟩
    rw [rate_cost N he]
    unfold cost
    rw [inSlice_whole hsl hw rfl, inSlice_whole hsl hw he.1, inSlice_whole hsl hw he.2]
  · exact Or.inl h
  · exact Or.inr (Or.inl h)

end Verif.Parts.Extract
