import Verif.Evaluator.Model
import Mathlib.Tactic.Linarith
import Mathlib.Tactic.Positivity
import Mathlib.Tactic.FieldSimp
import Mathlib.Tactic.Ring
import Mathlib.Tactic.NormNum
import Mathlib.Tactic.IntervalCases
import Mathlib.Algebra.BigOperators.Group.List.Basic

/-!
# Properties C10–C13: model evaluators
-/

namespace Verif.Evaluator

set_option linter.unusedSectionVars false

variable {K : Type} [Field K] [LinearOrder K] [IsStrictOrderedRing K]

/-- `a` and `b` can be compared: same method (and hence the same orientation), both evaluated. -/
structure Comparable (a b : Ev K) (s t : K) : Prop where
  method : a.method = b.method
  orient : a.higherIsBetter = b.higherIsBetter
  sa : a.stat = some s
  sb : b.stat = some t

/-- "`b` is a strictly better model than `a`" in terms of the statistics. -/
def Better (a : Ev K) (s t : K) : Prop := if a.higherIsBetter then s < t else t < s

theorem guard2_ok {a b : Ev K} {s t : K} (h : Comparable a b s t) : guard2 a b = .ok (s, t) := by
  simp [guard2, h.method, h.sa, h.sb]

/-- **C10.** `a < b` says exactly that `b` is the better model; the six comparison operators are the
corresponding order relations on statistics. -/
theorem c10_comparisons {a b : Ev K} {s t : K} (h : Comparable a b s t) :
    (lt a b = .ok true ↔ Better a s t) ∧ (gt a b = .ok true ↔ Better a t s) ∧
    (le a b = .ok true ↔ ¬ Better a t s) ∧ (ge a b = .ok true ↔ ¬ Better a s t) ∧
    (eq a b = .ok true ↔ s = t) ∧ (ne a b = .ok true ↔ s ≠ t) := by
  unfold lt gt le ge eq ne Better
  simp only [guard2_ok h, bind, Except.bind, pure, Except.pure]
  cases a.higherIsBetter <;> simp

/-- **C10.** Exactly one of `a < b`, `a == b`, `a > b` holds. -/
theorem c10_trichotomy {a b : Ev K} {s t : K} (h : Comparable a b s t) :
    (lt a b = .ok true ∧ eq a b = .ok false ∧ gt a b = .ok false) ∨
    (lt a b = .ok false ∧ eq a b = .ok true ∧ gt a b = .ok false) ∨
    (lt a b = .ok false ∧ eq a b = .ok false ∧ gt a b = .ok true) := by
  unfold lt gt eq
  simp only [guard2_ok h, bind, Except.bind, pure, Except.pure]
  rcases lt_trichotomy s t with h1 | h1 | h1
  · cases a.higherIsBetter <;> simp [h1, h1.ne, h1.not_gt]
  · subst h1; cases a.higherIsBetter <;> simp
  · cases a.higherIsBetter <;> simp [h1, h1.ne', h1.not_gt]

/-- **C10.** The order is transitive. -/
theorem c10_transitive {a b c : Ev K} {s t u : K} (hab : Comparable a b s t)
    (hbc : Comparable b c t u) (h1 : le a b = .ok true) (h2 : le b c = .ok true) :
    le a c = .ok true := by
  have hac : Comparable a c s u :=
    ⟨hab.method.trans hbc.method, hab.orient.trans hbc.orient, hab.sa, hbc.sb⟩
  have e1 := (c10_comparisons hab).2.2.1.1 h1
  have e2 := (c10_comparisons hbc).2.2.1.1 h2
  apply (c10_comparisons hac).2.2.1.2
  unfold Better at *
  rw [← hab.orient] at e2
  cases hh : a.higherIsBetter
  · rw [hh] at e1 e2
    simp only [Bool.false_eq_true, if_false, not_lt] at e1 e2 ⊢
    exact e2.trans e1
  · rw [hh] at e1 e2
    simp only [if_true, not_lt] at e1 e2 ⊢
    exact e1.trans e2

/-- **C10.** Evaluators of different methods, or not yet evaluated, never compare: every operator
raises. -/
theorem c10_no_comparison {a b : Ev K}
    (h : a.method ≠ b.method ∨ a.stat = none ∨ b.stat = none) :
    lt a b = .error .assertion ∧ le a b = .error .assertion ∧ eq a b = .error .assertion ∧
    ne a b = .error .assertion ∧ gt a b = .error .assertion ∧ ge a b = .error .assertion := by
  have hg : guard2 a b = .error .assertion := by
    unfold guard2
    split
    · rfl
    · rename_i hm
      rcases h with h | h | h
      · exact absurd h hm
      · rw [h]
      · rw [h]; cases a.stat <;> rfl
  unfold lt le eq ne gt ge
  simp only [hg, bind, Except.bind]
  simp

/-- Non-trivial instance: AIC 3 against AIC 5; the smaller AIC is the greater (better) model. -/
example : Comparable (K := ℚ) ⟨"AIC", false, some 3, none⟩ ⟨"AIC", false, some 5, none⟩ 3 5 ∧
    gt (K := ℚ) ⟨"AIC", false, some 3, none⟩ ⟨"AIC", false, some 5, none⟩ = .ok true := by
  refine ⟨⟨rfl, rfl, rfl, rfl⟩, ?_⟩
  rw [(c10_comparisons (a := ⟨"AIC", false, some (3 : ℚ), none⟩)
    (b := ⟨"AIC", false, some (5 : ℚ), none⟩) (s := 3) (t := 5) ⟨rfl, rfl, rfl, rfl⟩).2.1]
  norm_num [Better]

/-! ### C11 -/

theorem chiSquared_nonneg (e o d : List K) : 0 ≤ chiSquared e o d := by
  induction e generalizing o d with
  | nil => cases o <;> cases d <;> simp [chiSquared]
  | cons a e ih =>
    cases o with
    | nil => cases d <;> simp [chiSquared]
    | cons b o =>
      cases d with
      | nil => simp [chiSquared]
      | cons c d => rw [chiSquared]; have := ih o d; positivity

/-- **C11.** χ² is zero exactly for a perfect fit (equal lengths, non-zero errors). -/
theorem c11_chisq_zero_iff (e o d : List K) (h1 : e.length = o.length) (h2 : o.length = d.length)
    (hd : ∀ v ∈ d, v ≠ 0) : 0 ≤ chiSquared e o d ∧ (chiSquared e o d = 0 ↔ e = o) := by
  refine ⟨chiSquared_nonneg e o d, ?_⟩
  induction e generalizing o d with
  | nil => cases o with
    | nil => cases d <;> simp [chiSquared]
    | cons b o => simp at h1
  | cons a e ih =>
    cases o with
    | nil => simp at h1
    | cons b o =>
      cases d with
      | nil => simp at h2
      | cons c d =>
        rw [chiSquared]
        have hc : c ≠ 0 := hd c (by simp)
        have hih := ih o d (by simpa using h1) (by simpa using h2) (fun v hv => hd v (by simp [hv]))
        have h3 := chiSquared_nonneg e o d
        have h4 : 0 ≤ (a - b) ^ 2 / c ^ 2 := by positivity
        rw [add_eq_zero_iff_of_nonneg h4 h3, hih, div_eq_zero_iff]
        simp [hc, sub_eq_zero]

/-- **C11.** Scaling every uncertainty by `c` divides χ² by `c²`. -/
theorem c11_chisq_scaling (e o d : List K) (c : K) :
    chiSquared e o (d.map (fun v => c * v)) = chiSquared e o d / c ^ 2 := by
  induction e generalizing o d with
  | nil => cases o <;> cases d <;> simp [chiSquared]
  | cons a e ih =>
    cases o with
    | nil => cases d <;> simp [chiSquared]
    | cons b o =>
      cases d with
      | nil => simp [chiSquared]
      | cons v d =>
        rw [List.map_cons, chiSquared, chiSquared, ih, add_div, mul_pow]
        congr 1
        rw [div_div, mul_comm]

/-- **C11.** A fresh evaluator computes χ² plus the penalty `2k` (AIC) or `2k + 2k(k+1)/(n-k-1)`
(AICc) whenever there are enough points; too few parameters (after `kshift`) is an error. -/
theorem c11_evaluate_value (kind : Kind) (f : Fit K) (cf : Bool) (kshift k : ℤ)
    (hk : k = (if cf then f.nall else f.nfree : ℕ) + kshift) :
    (k < 0 → evaluate kind (new kind) f cf kshift = .error .modelEvaluator) ∧
    (0 ≤ k → minpoints kind k ≤ f.size →
      ∃ a, evaluate kind (new kind) f cf kshift = .ok a ∧
        a.stat = some (chiSquared f.value f.y f.error +
          match kind with
          | .aic => 2 * (k : K)
          | .aicc => 2 * (k : K) + 2 * k * (k + 1) / ((f.size : K) - k - 1))) := by
  constructor
  · intro h
    unfold evaluate
    rw [if_pos (by rw [← hk]; exact h)]
  · intro h0 hmin
    have : evaluate kind (new kind) f cf kshift = .ok ({ (new kind : Ev K) with
        chisq := some (chisqOf (new kind) f),
        stat := some (chisqOf (new kind) f + parpenalty kind k f.size) } : Ev K) := by
      unfold evaluate
      simp only [← hk]
      rw [if_neg (by omega), if_neg (by omega)]
    refine ⟨_, this, ?_⟩
    cases kind <;> simp [chisqOf, new, parpenalty]

/-- **C11.** For `n ≥ k+2` the AICc denominator is positive, the AICc penalty is at least the AIC
penalty, and both penalties strictly grow with the number of parameters. -/
theorem c11_penalty (k n : ℤ) (h0 : 0 ≤ k) (hn : k + 2 ≤ n) :
    (0 : K) < (n - k - 1) ∧
    (parpenalty .aic k n : K) ≤ parpenalty .aicc k n ∧
    (∀ k' : ℤ, 0 ≤ k' → k' < k →
      (parpenalty .aic k' n : K) < parpenalty .aic k n ∧
      (parpenalty .aicc k' n : K) < parpenalty .aicc k n) := by
  have hden : (0 : K) < (n - k - 1) := by
    have : (k : K) + 2 ≤ n := by exact_mod_cast hn
    linarith
  have hk : (0 : K) ≤ k := by exact_mod_cast h0
  refine ⟨hden, ?_, ?_⟩
  · unfold parpenalty
    have : (0 : K) ≤ 2 * k * (k + 1) / (n - k - 1) := by positivity
    linarith
  · intro k' h0' hlt
    have hk' : (0 : K) ≤ k' := by exact_mod_cast h0'
    have hlt' : (k' : K) < k := by exact_mod_cast hlt
    refine ⟨by unfold parpenalty; linarith, ?_⟩
    unfold parpenalty
    have hden' : (0 : K) < (n - k' - 1) := by linarith
    have : (2 * (k' : K) * (k' + 1)) / (n - k' - 1) ≤ (2 * k * (k + 1)) / (n - k - 1) := by
      apply div_le_div₀
      · positivity
      · nlinarith
      · exact hden
      · linarith
    linarith

/-- **C11.** A fit with fewer parameters and no larger χ² is strictly better: on the same number
of points its criterion is smaller, hence it compares as greater. -/
theorem c11_parsimony (kind : Kind) (f g : Fit K) {a b : Ev K}
    (ha : evaluate kind (new kind) f false 0 = .ok a)
    (hb : evaluate kind (new kind) g false 0 = .ok b)
    (hsize : f.size = g.size) (hn : g.nfree + 2 ≤ g.size) (hk : f.nfree < g.nfree)
    (hchi : chiSquared f.value f.y f.error ≤ chiSquared g.value g.y g.error) :
    gt a b = .ok true := by
  have hm : ∀ k : ℤ, k ≤ g.nfree → minpoints kind k ≤ g.size := by
    intro k hk; cases kind <;> simp [minpoints] <;> omega
  obtain ⟨a', ha', hsa⟩ := (c11_evaluate_value kind f false 0 f.nfree (by simp)).2 (by omega)
    (by rw [hsize]; exact hm _ (by omega))
  obtain ⟨b', hb', hsb⟩ := (c11_evaluate_value kind g false 0 g.nfree (by simp)).2 (by omega)
    (hm _ le_rfl)
  rw [ha, Except.ok.injEq] at ha'
  rw [hb, Except.ok.injEq] at hb'
  subst ha' hb'
  have hmeth : a.method = b.method ∧ a.higherIsBetter = false ∧ b.higherIsBetter = false := by
    unfold evaluate at ha hb
    rw [if_neg (by simp), Except.ok.injEq] at ha hb
    subst ha hb
    cases kind <;> simp [new]
  have hcmp := c10_comparisons (a := a) (b := b)
    ⟨hmeth.1, hmeth.2.1.trans hmeth.2.2.symm, hsa, hsb⟩
  apply hcmp.2.1.2
  unfold Better
  rw [hmeth.2.1]
  simp only [Bool.false_eq_true, if_false]
  have hp := c11_penalty (K := K) (g.nfree : ℤ) (g.size : ℤ) (by omega) (by omega)
  have hp' := hp.2.2 (f.nfree : ℤ) (by omega) (by omega)
  cases kind
  · have := hp'.1
    unfold parpenalty at this
    simp only [mul_one] at this
    simp only
    linarith
  · have := hp'.2
    unfold parpenalty at this
    simp only [mul_one] at this
    rw [hsize]
    push_cast at this
    simp only
    push_cast
    linarith

/-- Non-trivial instance of `c11_parsimony`: 1 against 2 parameters on 5 points. -/
example : ∃ a b, evaluate (K := ℚ) .aicc (new .aicc) ⟨1, 1, [0,0,0,0,0], [1,0,0,0,0], [1,1,1,1,1]⟩ false 0 = .ok a ∧
    evaluate (K := ℚ) .aicc (new .aicc) ⟨2, 2, [0,0,0,0,0], [1,1,0,0,0], [1,1,1,1,1]⟩ false 0 = .ok b ∧
    gt a b = .ok true := by
  refine ⟨_, _, rfl, rfl, ?_⟩
  apply c11_parsimony .aicc ⟨1, 1, [0,0,0,0,0], [1,0,0,0,0], [1,1,1,1,1]⟩
    ⟨2, 2, [0,0,0,0,0], [1,1,0,0,0], [1,1,1,1,1]⟩ rfl rfl rfl <;> norm_num [Fit.size, chiSquared]

/-- **C11, caching.** An evaluator that was already used keeps the χ² of the first fit: evaluating a
second fit with it combines the old χ² with the new penalty. -/
theorem c11_reused_evaluator_keeps_chisq (kind : Kind) (f g : Fit K) {a b : Ev K}
    (ha : evaluate kind (new kind) f false 0 = .ok a) (hb : evaluate kind a g false 0 = .ok b) :
    b.chisq = some (chiSquared f.value f.y f.error) := by
  unfold evaluate at ha hb
  rw [if_neg (by simp), Except.ok.injEq] at ha hb
  subst ha
  subst hb
  cases kind <;> simp [chisqOf, new]

/-- Non-trivial instance: the second fit is perfect, yet its χ² is reported as 1. -/
example : ∃ a b, evaluate (K := ℚ) .aic (new .aic) ⟨1, 1, [0], [1], [1]⟩ false 0 = .ok a ∧
    evaluate (K := ℚ) .aic a ⟨1, 1, [1], [1], [1]⟩ false 0 = .ok b ∧ b.chisq = some 1 := by
  refine ⟨_, _, rfl, rfl, ?_⟩
  rw [c11_reused_evaluator_keeps_chisq .aic ⟨1, 1, [0], [1], [1]⟩ ⟨1, 1, [1], [1], [1]⟩ rfl rfl]
  norm_num [chiSquared]

/-! ### C12 -/

/-- **C12.** Growth is never justified without enough points for the larger model; with enough
points it is justified exactly when a perfect fit with the larger number of parameters would have a
strictly lower criterion than the present fit. -/
theorem c12_growth_iff (kind : Kind) (f : Fit K) (k' : ℕ) :
    ((f.size : ℤ) < minpoints kind (f.nfree + k') →
      (growthJustified kind (new kind) f k').1 = false) ∧
    (minpoints kind (f.nfree + k') ≤ (f.size : ℤ) → ∀ a,
      evaluate kind (new kind) f false 0 = .ok a →
      ((growthJustified kind (new kind) f k').1 = true ↔
        ∃ s, a.stat = some s ∧ (0 : K) + parpenalty kind (f.nfree + k') f.size < s)) := by
  constructor
  · intro h
    unfold growthJustified
    simp only
    rw [if_pos h]
  · intro h a ha
    have hm : minpoints kind f.nfree ≤ (f.size : ℤ) := by
      cases kind <;> simp [minpoints] at h ⊢ <;> omega
    have hs : a.stat = some (chisqOf (new kind) f + parpenalty kind f.nfree f.size) := by
      unfold evaluate at ha
      rw [if_neg (by simp), Except.ok.injEq] at ha
      subst ha
      simp only [Bool.false_eq_true, if_false, add_zero]
      rw [if_neg (by omega)]
    unfold growthJustified
    simp only
    rw [if_neg (by omega), if_neg (by omega), hs, decide_eq_true_eq]
    constructor
    · intro h; exact ⟨_, rfl, by linarith⟩
    · rintro ⟨s, hs', hlt⟩
      rw [Option.some.injEq] at hs'
      subst hs'
      linarith

/-- **C12.** If growth by `k'` parameters is justified, so is growth by fewer; and growth justified
under AICc is justified under AIC. -/
theorem c12_growth_monotone (kind : Kind) (f : Fit K) (j k' : ℕ) (hjk : j ≤ k')
    (h : (growthJustified kind (new kind) f k').1 = true) :
    (growthJustified kind (new kind) f j).1 = true ∧
    (kind = .aicc → (growthJustified .aic (new .aic) f k').1 = true) := by
  have hsz : minpoints kind (f.nfree + k') ≤ (f.size : ℤ) := by
    by_contra hc
    have := (c12_growth_iff kind f k').1 (by omega)
    rw [this] at h
    simp at h
  unfold growthJustified at h ⊢
  simp only at h ⊢
  rw [if_neg (by omega)] at h
  have hm : ∀ m : ℤ, m ≤ f.nfree + k' → minpoints kind m ≤ (f.size : ℤ) := by
    intro m hm
    cases kind <;> simp [minpoints] at hsz ⊢ <;> omega
  have h1 := hm (f.nfree + j) (by omega)
  have h2 := hm f.nfree (by omega)
  have hn := hm (f.nfree + k') le_rfl
  rw [if_neg (by omega), decide_eq_true_eq] at h
  constructor
  · rw [if_neg (by omega), if_neg (by omega), decide_eq_true_eq]
    have : (parpenalty kind (f.nfree + j) f.size : K) ≤ parpenalty kind (f.nfree + k') f.size := by
      rcases hjk.eq_or_lt with rfl | hlt
      · exact le_rfl
      · cases kind
        · unfold parpenalty
          have : (j : K) ≤ k' := by exact_mod_cast hjk
          push_cast
          linarith
        · have := (c11_penalty (K := K) (f.nfree + k' : ℤ) f.size (by omega)
            (by simp [minpoints] at hn; omega)).2.2 (f.nfree + j) (by omega) (by omega)
          exact this.2.le
    linarith
  · rintro rfl
    simp only [minpoints] at hn h2
    rw [if_neg (by simp [minpoints]; omega), if_neg (by simp [minpoints]; omega), decide_eq_true_eq]
    have hc : chisqOf (new .aic) f = chisqOf (new .aicc) f := by simp [chisqOf, new]
    rw [hc]
    refine lt_of_le_of_lt ?_ h
    -- difference of correction terms is non-negative
    have key : (parpenalty .aicc f.nfree f.size : K) - parpenalty .aic f.nfree f.size ≤
        parpenalty .aicc (f.nfree + k') f.size - parpenalty .aic (f.nfree + k') f.size := by
      unfold parpenalty
      have hd : (0 : K) < (f.size : ℤ) - ((f.nfree : ℤ) + (k' : ℤ) : ℤ) - 1 := by
        have : (((f.nfree : ℤ) + k' + 2 : ℤ) : K) ≤ ((f.size : ℤ) : K) := by exact_mod_cast hn
        push_cast at this ⊢
        linarith
      have hk0 : (0 : K) ≤ ((f.nfree : ℤ) : K) := by positivity
      have hk1 : (0 : K) ≤ ((k' : ℤ) : K) := by positivity
      have : (2 * ((f.nfree : ℤ) : K) * (((f.nfree : ℤ) : K) + 1)) / (((f.size : ℤ) : K) - ((f.nfree : ℤ) : K) - 1)
          ≤ (2 * (((f.nfree : ℤ) + (k' : ℤ) : ℤ) : K) * ((((f.nfree : ℤ) + (k' : ℤ) : ℤ) : K) + 1)) /
            (((f.size : ℤ) : K) - (((f.nfree : ℤ) + (k' : ℤ) : ℤ) : K) - 1) := by
        push_cast at hd hk0 hk1 ⊢
        apply div_le_div₀
        · positivity
        · nlinarith
        · exact hd
        · linarith
      linarith
    linarith

/-- **C12.** Adding nothing is "justified" whenever there are enough points and the fit is not
perfect. -/
theorem c12_growth_zero (kind : Kind) (f : Fit K) (h : minpoints kind f.nfree ≤ (f.size : ℤ)) :
    (growthJustified kind (new kind) f 0).1 = true ↔ 0 < chiSquared f.value f.y f.error := by
  unfold growthJustified
  simp only [add_zero, sub_self]
  rw [if_neg (by omega), decide_eq_true_eq]
  cases kind <;> simp [chisqOf, new]

/-- Non-trivial instance: with χ² = 9 one more parameter (cost 2) is justified under AIC but five
more (cost 10) are not. -/
example : (growthJustified (K := ℚ) .aic (new .aic) ⟨1, 1, [0,0], [3,0], [1,1]⟩ 1).1 = true ∧
    (growthJustified (K := ℚ) .aic (new .aic) ⟨1, 1, [0,0], [3,0], [1,1]⟩ 5).1 = false := by
  norm_num [growthJustified, new, chisqOf, chiSquared, parpenalty, minpoints, Fit.size]

/-! ### C13 -/

theorem foldl_min_le (s : ℝ) (l : List ℝ) :
    l.foldl min s ∈ s :: l ∧ ∀ t ∈ s :: l, l.foldl min s ≤ t := by
  induction l generalizing s with
  | nil => simp
  | cons a l ih =>
    obtain ⟨h1, h2⟩ := ih (min s a)
    rw [List.foldl_cons]
    constructor
    · rcases List.mem_cons.1 h1 with h | h
      · rw [h]
        rcases min_choice s a with h' | h' <;> rw [h'] <;> simp
      · simp [h]
    · intro t ht
      have hle := h2 _ List.mem_cons_self
      rcases List.mem_cons.1 ht with rfl | ht
      · exact hle.trans (min_le_left _ _)
      · rcases List.mem_cons.1 ht with rfl | ht
        · exact hle.trans (min_le_right _ _)
        · exact h2 t (by simp [ht])

/-- **C13.** Akaike weights of a non-empty list: one per model, `exp(-(AIC - best)/2)`, in `(0, 1]`,
and exactly the best models have weight 1. -/
theorem c13_weights (stats : List ℝ) (h : stats ≠ []) :
    ∃ w best, akaikeWeights stats = some w ∧ w.length = stats.length ∧ best ∈ stats ∧
      (∀ t ∈ stats, best ≤ t) ∧
      ∀ i (hi : i < stats.length), ∃ v, w[i]? = some v ∧
        v = Real.exp (-(stats[i] - best) / 2) ∧ 0 < v ∧ v ≤ 1 ∧ (v = 1 ↔ stats[i] = best) := by
  cases stats with
  | nil => exact absurd rfl h
  | cons s rest =>
    obtain ⟨h1, h2⟩ := foldl_min_le s rest
    refine ⟨_, rest.foldl min s, rfl, by simp, h1, h2, ?_⟩
    intro i hi
    have hle := h2 _ (List.getElem_mem hi)
    refine ⟨_, ?_, rfl, Real.exp_pos _, ?_, ?_⟩
    · rw [List.getElem?_map, List.getElem?_eq_getElem hi]; rfl
    · apply Real.exp_le_one_iff.2
      linarith
    · rw [Real.exp_eq_one_iff]
      constructor
      · intro h; linarith
      · intro h; linarith

/-- **C13.** Akaike probabilities are positive, sum to one, and rank the models by AIC. -/
theorem c13_probs (stats : List ℝ) (h : stats ≠ []) :
    ∃ p, akaikeProbs stats = some p ∧ p.length = stats.length ∧ p.sum = 1 ∧
      (∀ v ∈ p, 0 < v ∧ v ≤ 1) ∧
      ∀ i j (hi : i < stats.length) (hj : j < stats.length),
        ∃ u v, p[i]? = some u ∧ p[j]? = some v ∧ (u < v ↔ stats[j] < stats[i]) := by
  obtain ⟨w, best, hw, hlen, -, -, hall⟩ := c13_weights stats h
  have hpos : ∀ v ∈ w, 0 < v := by
    intro v hv
    obtain ⟨i, hi, rfl⟩ := List.mem_iff_getElem.1 hv
    obtain ⟨v', hv', -, hp, -⟩ := hall i (by omega)
    rw [List.getElem?_eq_getElem hi, Option.some.injEq] at hv'
    rw [hv']; exact hp
  have hne : w ≠ [] := by
    intro e; rw [e] at hlen; simp at hlen
    exact h (List.length_eq_zero_iff.1 hlen.symm)
  have hsum : 0 < w.sum := List.sum_pos w hpos hne
  have hsumdiv : ∀ (l : List ℝ) (c : ℝ), (l.map (fun v => v / c)).sum = l.sum / c := by
    intro l c
    induction l with
    | nil => simp
    | cons a l ih => simp [ih, add_div]
  have hle : ∀ v ∈ w, v ≤ w.sum := fun v hv => List.single_le_sum (fun x hx => (hpos x hx).le) v hv
  refine ⟨w.map (fun v => v / w.sum), ?_, by simp [hlen], ?_, ?_, ?_⟩
  · unfold akaikeProbs; rw [hw]
  · rw [hsumdiv, div_self hsum.ne']
  · intro v hv
    obtain ⟨u, hu, rfl⟩ := List.mem_map.1 hv
    exact ⟨div_pos (hpos u hu) hsum, (div_le_one hsum).2 (hle u hu)⟩
  · intro i j hi hj
    obtain ⟨u, hu, eu, -⟩ := hall i hi
    obtain ⟨v, hv, ev, -⟩ := hall j hj
    refine ⟨u / w.sum, v / w.sum, by rw [List.getElem?_map, hu]; rfl,
      by rw [List.getElem?_map, hv]; rfl, ?_⟩
    rw [div_lt_div_iff_of_pos_right hsum, eu, ev, Real.exp_lt_exp]
    constructor
    · intro h; linarith
    · intro h; linarith

/-- **C13.** Adding a constant to all AICs changes neither weights nor probabilities. -/
theorem c13_shift_invariant (stats : List ℝ) (c : ℝ) :
    akaikeWeights (stats.map (· + c)) = akaikeWeights stats ∧
    akaikeProbs (stats.map (· + c)) = akaikeProbs stats := by
  have hw : akaikeWeights (stats.map (· + c)) = akaikeWeights stats := by
    cases stats with
    | nil => rfl
    | cons s rest =>
      have hm : ∀ (l : List ℝ) (s : ℝ), (l.map (· + c)).foldl min (s + c) = l.foldl min s + c := by
        intro l
        induction l with
        | nil => intro s; rfl
        | cons a l ih =>
          intro s
          rw [List.map_cons, List.foldl_cons, List.foldl_cons, ← ih, min_add_add_right]
      simp only [akaikeWeights, List.map_cons, hm, List.map_map]
      congr 2
      · congr 1; ring
      · apply List.map_congr_left
        intro t _
        simp only [Function.comp]
        congr 1; ring
  exact ⟨hw, by unfold akaikeProbs; rw [hw]⟩

/-- Non-trivial instance: three models. -/
example : ([1, 3, 2] : List ℝ) ≠ [] ∧ ∃ p, akaikeProbs [1, 3, 2] = some p ∧ p.length = 3 ∧ p.sum = 1 := by
  obtain ⟨p, h1, h2, h3, -⟩ := c13_probs [1, 3, 2] (by simp)
  exact ⟨by simp, p, h1, h2, h3⟩

end Verif.Evaluator
