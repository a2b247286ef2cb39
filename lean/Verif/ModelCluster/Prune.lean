import Verif.ModelCluster.GreedyLemmas

/-!
# C29: `ModelCluster.prune`
-/

set_option linter.unusedSectionVars false

namespace Verif.Parts.ModelCluster

open Verif.Py Verif.PeakList

variable {K : Type} [Field K] [LinearOrder K]

/-- What one round of the loop does, if it does not raise or stop. -/
theorem round_facts {P : PruneEnv K} (hT : ∀ out, Tame (P.env out)) {mc mc' : Cluster K}
    {best l : List (Part K)} {cs : List (Check K)} {k idx origLen : ℕ} {q : Evaluator.Ev K}
    (hc : checks P best mc (List.range best.length) = (.ok cs, mc')) (hk : cs[k]? = some (idx, q, l))
    (ho : best.length ≤ origLen) :
    Kept best (leftOf best idx ++ l ++ rightOf best idx origLen) ∧
    (leftOf best idx ++ l ++ rightOf best idx origLen).length < best.length ∧
    Kept best (fit (P.env []) { estimate := false }
      { mc' with model := leftOf best idx ++ l ++ rightOf best idx origLen }).2.1.model ∧
    (fit (P.env []) { estimate := false }
      { mc' with model := leftOf best idx ++ l ++ rightOf best idx origLen }).2.1.model.length < best.length := by
  obtain ⟨-, p, mcI, hp, hr, hl, -, -⟩ := checks_spec hT best _ mc cs mc' hc idx q l (List.mem_of_getElem? hk)
  obtain ⟨r1, r2⟩ := round_kept hp hr hl ho
  have hf := (fit_kept (hT []) (o := { estimate := false }) rfl
    { mc' with model := leftOf best idx ++ l ++ rightOf best idx origLen } (Or.inr rfl)).1
  refine ⟨r1, r2, r1.trans hf, ?_⟩
  exact lt_of_le_of_lt hf.length r2

theorem pruneLoop_kept {P : PruneEnv K} (hT : ∀ out, Tame (P.env out)) (pick : List (Evaluator.Ev K) → ℕ)
    (m : List (Part K)) : ∀ (n : ℕ) (mc : Cluster K) (self : List (Part K)) (go : Bool) (best : List (Part K))
      (bestQual : Evaluator.Ev K) (origLen : ℕ), Kept m self → Kept m best → best.length ≤ origLen →
      Kept m (pruneLoop P pick n mc self go best bestQual origLen).2 := by
  intro n
  induction n with
  | zero => intro mc self go best bestQual origLen h1 _ _; exact h1
  | succ n ih =>
    intro mc self go best bestQual origLen h1 h2 h3
    unfold pruneLoop
    split
    · exact h1
    split
    · exact h1
    rename_i cs mc' hc
    split
    · exact h1
    rename_i idx q l hk
    split
    · exact h1
    · exact h1
    obtain ⟨-, -, a3, a4⟩ := round_facts hT hc hk h3
    split
    · exact h1
    rename_i o mc'' l' hfit
    rw [hfit] at a3 a4
    simp only at a3 a4
    split
    · exact h2.trans a3
    · exact ih _ _ _ _ _ _ (h2.trans a3) (h2.trans a3) (by omega)

/-- **C29.** Pruning only ever takes removable peaks away, whatever the fits do and also when it raises: the
peaks of the cluster afterwards are some of those from before — with the same function and flags, possibly
with other parameter values —, and every non-removable peak is still there. -/
theorem c29_prune_keeps (P : PruneEnv K) (hT : ∀ out, Tame (P.env out)) (pick : List (Evaluator.Ev K) → ℕ)
    (mc : Cluster K) (m : List (Part K)) :
    ((prune P pick mc m).2.map key).Subperm (m.map key) ∧
    (((prune P pick mc m).2.filter (fun p => !p.removable)).map key).Perm
      ((m.filter (fun p => !p.removable)).map key) := by
  have : Kept m (prune P pick mc m).2 := by
    unfold prune
    split
    · exact Kept.refl _
    · exact pruneLoop_kept hT pick m _ _ _ _ _ _ _ (Kept.refl _) (Kept.refl _) (le_refl _)
  exact ⟨this.sub, this.hard⟩

theorem pruneLoop_fuel {P : PruneEnv K} (hT : ∀ out, Tame (P.env out)) (pick : List (Evaluator.Ev K) → ℕ) :
    ∀ (n k : ℕ) (mc : Cluster K) (self : List (Part K)) (go : Bool) (best : List (Part K))
      (bestQual : Evaluator.Ev K) (origLen : ℕ), best.length ≤ origLen → best.length < n → best.length < k →
      pruneLoop P pick n mc self go best bestQual origLen = pruneLoop P pick k mc self go best bestQual origLen := by
  intro n
  induction n with
  | zero => intro k mc self go best bestQual origLen _ h _; omega
  | succ n ih =>
    intro k mc self go best bestQual origLen h1 h2 h3
    obtain ⟨k, rfl⟩ : ∃ k', k = k' + 1 := ⟨k - 1, by omega⟩
    unfold pruneLoop
    split
    · rfl
    cases hc : checks P best mc (List.range best.length) with
    | mk r mc' =>
      cases r with
      | error e => rfl
      | ok cs =>
        simp only
        cases hk : cs[pick (cs.map (fun c => c.2.1))]? with
        | none => rfl
        | some t =>
          obtain ⟨idx, q, l⟩ := t
          simp only
          cases Evaluator.gt q bestQual with
          | error e => rfl
          | ok b =>
            cases b with
            | false => rfl
            | true =>
              simp only
              obtain ⟨-, -, -, a4⟩ := round_facts hT hc hk h1
              revert a4
              generalize fit (P.env []) { estimate := false }
                { mc' with model := leftOf best idx ++ l ++ rightOf best idx origLen } = f
              obtain ⟨f1, f2, f3⟩ := f
              intro a4
              simp only at a4
              cases f1 with
              | error e => rfl
              | ok o =>
                simp only
                split
                · rfl
                · exact ih k _ _ _ _ _ _ (by omega) (by omega) (by omega)

/-- **C29.** Pruning always ends: the bound on the number of rounds in the model, one more than the number of
peaks, is never what stops it. -/
theorem c29_prune_terminates (P : PruneEnv K) (hT : ∀ out, Tame (P.env out))
    (pick : List (Evaluator.Ev K) → ℕ) (mc : Cluster K) (m : List (Part K)) (hm : m ≠ []) (n : ℕ)
    (hn : m.length < n) :
    pruneLoop P pick n mc m (m.any (fun p => p.removable)) m (P.qual [] m 0) m.length = prune P pick mc m := by
  unfold prune
  rw [if_neg hm]
  exact pruneLoop_fuel hT pick _ _ _ _ _ _ _ _ (le_refl _) hn (by omega)

/-! ### Improvement -/

/-- What is known of the qualities: they are comparable, the fits use them, and a peak that is subtracted
from the data counts like one in the model if the parameter count is shifted accordingly. -/
structure Honest (P : PruneEnv K) : Prop where
  cmp : ∃ (meth : String) (h : Bool), ∀ out m k, ∃ s, (P.qual out m k).method = meth ∧
    (P.qual out m k).higherIsBetter = h ∧ (P.qual out m k).stat = some s
  env : ∀ out m bl, (P.env out).quality m bl = P.qual out m 0
  add : ∀ l m r, P.qual (l ++ r) m (npars (l ++ r) false) = P.qual [] (l ++ m ++ r) 0

/-- No fit of the search from the model `m` is abandoned or taken back: each fit of some of its peaks, whatever their
parameter values, converges, and to something not worse. -/
def Converges (P : PruneEnv K) (m : List (Part K)) : Prop :=
  ∀ out ps bl, ps ≠ [] → (ps.map key).Subperm (m.map key) → ((P.env out).lsq ps).1 = .ok () ∧
    Evaluator.lt ((P.env out).quality ((P.env out).clean (sort (P.env out).as false pos ((P.env out).lsq ps).2)) bl)
      ((P.env out).quality ps bl) = .ok false

/-- Every parameter of the peak may vary. -/
def AllFree (p : Part K) : Prop := p.free.count true = p.owner.npars

theorem allFree_of_sub {m m' : List (Part K)} (h : (m'.map key).Subperm (m.map key)) (ha : ∀ p ∈ m, AllFree p) :
    ∀ p ∈ m', AllFree p := by
  intro p hp
  have : key p ∈ m.map key := h.subset (List.mem_map_of_mem hp)
  obtain ⟨q, hq, hk⟩ := List.mem_map.1 this
  have hA := ha q hq
  unfold key at hk
  simp only [Prod.mk.injEq] at hk
  unfold AllFree at hA ⊢
  rw [← hk.1, ← hk.2.1]; exact hA

theorem npars_append (a b : List (Part K)) (c : Bool) : npars (a ++ b) c = npars a c + npars b c := by
  unfold npars; rw [List.map_append, List.sum_append]

theorem npars_allFree {m : List (Part K)} (ha : ∀ p ∈ m, AllFree p) : npars m true = npars m false := by
  unfold npars
  congr 1
  apply List.map_congr_left
  intro p hp
  have := ha p hp
  unfold AllFree at this
  simp [Part.npars, this]

theorem npars_eraseIdx (m : List (Part K)) (i : ℕ) (p : Part K) (hp : m[i]? = some p) (c : Bool) :
    npars m c = npars (m.eraseIdx i) c + p.npars c := by
  induction m generalizing i with
  | nil => simp at hp
  | cons a m ih =>
    match i with
    | 0 =>
      simp only [List.getElem?_cons_zero, Option.some.injEq] at hp
      subst hp
      rw [List.eraseIdx_cons_zero]
      simp [npars, add_comm]
    | i + 1 =>
      have := ih i (by simpa using hp)
      rw [List.eraseIdx_cons_succ]
      unfold npars at this ⊢
      rw [List.map_cons, List.map_cons, List.sum_cons, List.sum_cons, this]
      omega

/-- The shift of the parameter count is what it should be if no parameter is fixed: that of the peaks that
are subtracted from the data. -/
theorem addpars_eq {best : List (Part K)} {i : ℕ} (hi : i < best.length) (ha : ∀ p ∈ best, AllFree p) :
    addpars best i = (npars (leftOf best i ++ rightOf best i best.length) false : ℕ) := by
  have hp : best[i]? = some best[i] := List.getElem?_eq_getElem hi
  have e1 := npars_eraseIdx best i best[i] hp false
  rw [← segments best i hi, npars_append, npars_append] at e1
  have hseg : ∀ p ∈ seg best i, AllFree p := by
    intro p hps
    refine ha p ((List.eraseIdx_sublist best i).subset ?_)
    rw [← segments best i hi]
    simp [hps]
  unfold addpars
  rw [npars_allFree ha, npars_allFree hseg, hp, npars_append]
  simp only [Option.map_some, Option.getD_some]
  omega

/-- `a` is strictly better than `b`. -/
def Better (a b : Evaluator.Ev K) : Prop := Evaluator.gt a b = .ok true

section Cmp

variable {P : PruneEnv K}

theorem better_stat (hP : Honest P) : ∃ h : Bool, ∀ out m k out' m' k', ∃ s t,
    (P.qual out m k).stat = some s ∧ (P.qual out' m' k').stat = some t ∧
    Evaluator.gt (P.qual out m k) (P.qual out' m' k') = .ok (if h then decide (s > t) else decide (t > s)) ∧
    Evaluator.lt (P.qual out m k) (P.qual out' m' k') = .ok (if h then decide (s < t) else decide (t < s)) := by
  obtain ⟨meth, h, hall⟩ := hP.cmp
  refine ⟨h, fun out m k out' m' k' => ?_⟩
  obtain ⟨s, a1, a2, a3⟩ := hall out m k
  obtain ⟨t, b1, b2, b3⟩ := hall out' m' k'
  have hg : Evaluator.guard2 (P.qual out m k) (P.qual out' m' k') = .ok (s, t) := by
    unfold Evaluator.guard2
    rw [if_neg (by rw [a1, b1]; simp), a3, b3]
  refine ⟨s, t, a3, b3, ?_, ?_⟩
  · unfold Evaluator.gt; rw [hg]; simp only [a2]; rfl
  · unfold Evaluator.lt; rw [hg]; simp only [a2]; rfl

/-- Not worse than something better is better. -/
theorem better_of_notLt (hP : Honest P) {o1 o2 o3 m1 m2 m3 : List (Part K)} {k1 k2 k3 : ℤ}
    (h1 : Evaluator.lt (P.qual o1 m1 k1) (P.qual o2 m2 k2) = .ok false)
    (h2 : Better (P.qual o2 m2 k2) (P.qual o3 m3 k3)) : Better (P.qual o1 m1 k1) (P.qual o3 m3 k3) := by
  obtain ⟨h, hall⟩ := better_stat hP
  obtain ⟨s, t, a1, a2, a3, a4⟩ := hall o1 m1 k1 o2 m2 k2
  obtain ⟨s2, t2, b1, b2, b3, b4⟩ := hall o2 m2 k2 o3 m3 k3
  obtain ⟨s3, t3, c1, c2, c3, c4⟩ := hall o1 m1 k1 o3 m3 k3
  unfold Better at h2 ⊢
  rw [a4] at h1
  rw [b3] at h2
  rw [c3]
  rw [a1, Option.some.injEq] at c1
  rw [a2, Option.some.injEq] at b1
  rw [b2, Option.some.injEq] at c2
  subst c1 b1 c2
  cases h
  · simp only [Bool.false_eq_true, if_false, Except.ok.injEq, decide_eq_false_iff_not, decide_eq_true_eq,
      not_lt, gt_iff_lt] at *
    exact lt_of_le_of_lt h1 h2
  · simp only [if_true, Except.ok.injEq, decide_eq_false_iff_not, decide_eq_true_eq, not_lt, gt_iff_lt] at *
    exact lt_of_lt_of_le h2 h1

theorem better_trans (hP : Honest P) {o1 o2 o3 m1 m2 m3 : List (Part K)} {k1 k2 k3 : ℤ}
    (h1 : Better (P.qual o1 m1 k1) (P.qual o2 m2 k2))
    (h2 : Better (P.qual o2 m2 k2) (P.qual o3 m3 k3)) : Better (P.qual o1 m1 k1) (P.qual o3 m3 k3) := by
  refine better_of_notLt hP ?_ h2
  obtain ⟨h, hall⟩ := better_stat hP
  obtain ⟨s, t, a1, a2, a3, a4⟩ := hall o1 m1 k1 o2 m2 k2
  unfold Better at h1
  rw [a3] at h1
  rw [a4]
  cases h
  · simp only [Bool.false_eq_true, if_false, Except.ok.injEq, decide_eq_true_eq, decide_eq_false_iff_not] at *
    exact not_lt.2 h1.le
  · simp only [if_true, Except.ok.injEq, decide_eq_true_eq, decide_eq_false_iff_not] at *
    exact not_lt.2 h1.le

theorem notLt_self (hP : Honest P) (o m : List (Part K)) (k : ℤ) :
    Evaluator.lt (P.qual o m k) (P.qual o m k) = .ok false := by
  obtain ⟨h, hall⟩ := better_stat hP
  obtain ⟨s, t, a1, a2, a3, a4⟩ := hall o m k o m k
  rw [a1, Option.some.injEq] at a2
  subst a2
  rw [a4]
  simp

/-- Fits of the search, if they converge: the cluster's model is the list object, and not worse. -/
theorem fit_converges (hP : Honest P) {m : List (Part K)} (hC : Converges P m) (out : List (Part K)) (c : Cluster K)
    (hsub : (c.model.map key).Subperm (m.map key)) :
    (fit (P.env out) { estimate := false } c).2.2 = (fit (P.env out) { estimate := false } c).2.1.model ∧
    Evaluator.lt (P.qual out (fit (P.env out) { estimate := false } c).2.1.model 0) (P.qual out c.model 0) =
      .ok false := by
  unfold fit
  split
  · exact ⟨rfl, notLt_self hP _ _ _⟩
  · split
    · rw [if_neg (by simp)]
      exact ⟨rfl, notLt_self hP _ _ _⟩
    · rename_i hne
      obtain ⟨c1, c2⟩ := hC out c.model c.baseline hne hsub
      have hb : fitBaseline { estimate := false } c = none := by
        unfold fitBaseline; cases c.baseline <;> simp
      have hl : launch (P.env out) { estimate := false } c =
          (.ok (), ((P.env out).lsq c.model).2, c.baseline) := by
        unfold launch; rw [hb]; simp only [c1]
      unfold fitCore
      simp only [hl, hb, c2]
      rw [if_neg (by simp)]
      simp only
      rw [hP.env, hP.env] at c2
      exact ⟨trivial, c2⟩

theorem pruneLoop_improves (hT : ∀ out, Tame (P.env out)) (hP : Honest P) (pick : List (Evaluator.Ev K) → ℕ)
    (m : List (Part K)) (hC : Converges P m) (ha : ∀ p ∈ m, AllFree p) :
    ∀ (n : ℕ) (mc : Cluster K) (go : Bool) (best : List (Part K)) (origLen : ℕ),
      Kept m best → best.length ≤ origLen →
      (best = m ∨ Better (P.qual [] best 0) (P.qual [] m 0)) →
      ((pruneLoop P pick n mc best go best (P.qual [] best 0) origLen).2 = m ∨
        Better (P.qual [] (pruneLoop P pick n mc best go best (P.qual [] best 0) origLen).2 0) (P.qual [] m 0)) := by
  intro n
  induction n with
  | zero => intro mc go best origLen _ _ h; exact h
  | succ n ih =>
    intro mc go best origLen h2 h3 hI
    unfold pruneLoop
    split
    · exact hI
    split
    · exact hI
    rename_i cs mc' hc
    split
    · exact hI
    rename_i idx q l hk
    split
    · exact hI
    · exact hI
    rename_i hgt
    obtain ⟨a1, -, a3, a4⟩ := round_facts hT hc hk h3
    obtain ⟨-, p, mcI, hp, hr, hl, hq, hl'⟩ :=
      checks_spec hT best _ mc cs mc' hc idx q l (List.mem_of_getElem? hk)
    have hi := getElem?_lt hp
    have hall : ∀ p ∈ best, AllFree p := allFree_of_sub h2.sub ha
    have hseg : ((seg best idx).map key).Subperm (m.map key) := by
      refine List.Subperm.trans (List.Sublist.subperm ?_) h2.sub
      refine List.Sublist.map key (List.Sublist.trans ?_ (List.eraseIdx_sublist best idx))
      rw [← segments best idx hi]
      exact (List.sublist_append_right _ _).trans (List.sublist_append_left _ _)
    rw [addpars_eq hi hall, ← (fit_converges hP hC _ _ hseg).1, ← hl', hP.add, ← rightOf_eq best idx origLen h3] at hq
    split
    · exact hI
    rename_i o mc'' l' hfit
    rw [hfit] at a3 a4
    simp only at a3 a4
    have hnw := (fit_converges hP hC [] { mc' with
      model := leftOf best idx ++ l ++ rightOf best idx origLen } (h2.trans a1).sub).2
    rw [hfit] at hnw
    simp only at hnw
    have hb1 : Better (P.qual [] mc''.model 0) (P.qual [] best 0) := by
      refine better_of_notLt hP hnw ?_
      rw [← hq]; exact hgt
    have hb2 : Better (P.qual [] mc''.model 0) (P.qual [] m 0) := by
      rcases hI with hI | hI
      · rw [← hI]; exact hb1
      · exact better_trans hP hb1 hI
    split
    · exact Or.inr hb2
    · exact ih _ _ _ _ (h2.trans a3) (by omega) (Or.inr hb2)

end Cmp

/-- **C29.** If no parameter is fixed and no fit during the search is taken back, pruning leaves the model
exactly as it was or makes it strictly better — also when it ends with an exception. -/
theorem c29_prune_improves (P : PruneEnv K) (hT : ∀ out, Tame (P.env out)) (hP : Honest P)
    (pick : List (Evaluator.Ev K) → ℕ) (mc : Cluster K) (m : List (Part K)) (hC : Converges P m)
    (ha : ∀ p ∈ m, AllFree p) :
    (prune P pick mc m).2 = m ∨
    Evaluator.gt (P.qual [] (prune P pick mc m).2 0) (P.qual [] m 0) = .ok true := by
  unfold prune
  split
  · exact Or.inl rfl
  · exact pruneLoop_improves hT hP pick m hC ha _ _ _ _ _ (Kept.refl _) (le_refl _) (Or.inl rfl)

/-! ### Concrete searches -/

/-- A peak with one free parameter, its position. -/
def pk (v : ℚ) (removable : Bool) : Part ℚ := ⟨boxOwner, [v], [true], removable, false, false⟩

/-- No quality beats the one at index `i`. -/
def unbeaten (qs : List (Evaluator.Ev ℚ)) (i : ℕ) : Bool :=
  match qs[i]? with
  | none => false
  | some q => qs.all (fun q' => match Evaluator.gt q' q with | .ok true => false | _ => true)

/-- The index of the first quality that no other beats. -/
def pickBest (qs : List (Evaluator.Ev ℚ)) : ℕ := ((List.range qs.length).find? (unbeaten qs)).getD 0

/-- A world in which positions should add up to 5 and each free parameter costs `w`. -/
def sumQual (w : ℚ) (out m : List (Part ℚ)) (k : ℤ) : Evaluator.Ev ℚ :=
  ⟨"AIC", false, some (|((out ++ m).map pos).sum - 5| + w * ((npars m false : ℤ) + k : ℤ)), none⟩

def sumWorld (w : ℚ) (lsq : List (Part ℚ) → Res Unit × List (Part ℚ)) (clean : List (Part ℚ) → List (Part ℚ)) :
    PruneEnv ℚ where
  env out := ⟨fun m _ => sumQual w out m 0, fun _ _ => false, lsq, .ok none, clean, mergeAs⟩
  qual := sumQual w

/-- The positions of a model. -/
def posOf (m : List (Part ℚ)) : List ℚ := m.map pos

theorem sumWorld_honest (w : ℚ) lsq clean : Honest (sumWorld w lsq clean) where
  cmp := ⟨"AIC", false, fun _ _ _ => ⟨_, rfl, rfl, rfl⟩⟩
  env := fun _ _ _ => rfl
  add := by
    intro l m r
    have e1 : ((l ++ r ++ m).map pos).sum = ((l ++ m ++ r).map pos).sum := by
      simp only [List.map_append, List.sum_append]; ring
    have e2 : ((npars m false : ℤ) + (npars (l ++ r) false : ℤ)) = ((npars (l ++ m ++ r) false : ℤ) + 0) := by
      simp only [npars_append]; push_cast; ring
    show sumQual w _ _ _ = sumQual w _ _ _
    unfold sumQual
    rw [e1, e2]
    rfl

theorem sumWorld_tame (w : ℚ) (out : List (Part ℚ)) :
    Tame ((sumWorld w (fun ps => (.ok (), ps)) id).env out) where
  sorts := mergeAs_sorts
  frame := fun _ => List.forall₂_same.2 (fun _ _ => ⟨rfl, rfl, rfl, rfl, rfl, rfl⟩)
  clean := fun _ => List.Sublist.refl _
  hard := fun _ => rfl

theorem sumWorld_converges (w : ℚ) (m : List (Part ℚ)) : Converges (sumWorld w (fun ps => (.ok (), ps)) id) m := by
  intro out ps bl _ _
  refine ⟨rfl, ?_⟩
  have hp : (sort mergeAs false pos ps).Perm ps := (c37_sort mergeAs_sorts false pos ps).1
  have e : sumQual w out (sort mergeAs false pos ps) 0 = sumQual w out ps 0 := by
    unfold sumQual npars
    rw [List.map_append, List.map_append, List.sum_append, List.sum_append, (hp.map _).sum_eq, (hp.map _).sum_eq]
  show Evaluator.lt (sumQual w out (sort mergeAs false pos ps) 0) (sumQual w out ps 0) = _
  rw [e]
  exact notLt_self (sumWorld_honest w (fun ps => (.ok (), ps)) id) out ps 0

/-- Instance of the three theorems: of the peaks 4, 7, 1 (fixed in the model), 2 the second is removed, then
the one at 2. -/
example : (∀ out, Tame ((sumWorld 1 (fun ps => (.ok (), ps)) id).env out)) ∧
    Honest (sumWorld 1 (fun ps => (.ok (), ps)) id) ∧ Converges (sumWorld 1 (fun ps => (.ok (), ps)) id) [pk 4 true, pk 7 true, pk 1 false, pk 2 true] ∧
    (∀ p ∈ [pk 4 true, pk 7 true, pk 1 false, pk 2 true], AllFree p) ∧
    posOf (prune (sumWorld 1 (fun ps => (.ok (), ps)) id) pickBest exCluster
      [pk 4 true, pk 7 true, pk 1 false, pk 2 true]).2 = [1, 4] := by
  refine ⟨sumWorld_tame 1, sumWorld_honest _ _ _, sumWorld_converges 1 _, ?_, by decide +kernel⟩
  intro p hp
  simp only [List.mem_cons, List.not_mem_nil, or_false] at hp
  rcases hp with rfl | rfl | rfl | rfl <;> rfl

/-- The exception of a call, if any. -/
def errOf (r : Res Unit) : Option Err :=
  match r with
  | .error e => some e
  | .ok _ => none

/-- **C29, finding.** Pruning can raise IndexError: if the clean-up after a fit removes the last removable
peak while other removals were still to be checked, the next round has nothing to choose from.  (Here a peak
with two neighbours that the clean-up regards as poor; the cluster has been pruned by then.) -/
theorem c29_index_error :
    (∀ out, Tame ((sumWorld 10 (fun ps => (.ok (), ps))
      (fun ps => ps.filter (fun p => !p.removable || decide (pos p < 3)))).env out)) ∧
    errOf (prune (sumWorld 10 (fun ps => (.ok (), ps))
      (fun ps => ps.filter (fun p => !p.removable || decide (pos p < 3)))) pickBest exCluster
      [pk 1 false, pk 3 true, pk 4 true]).1 = some .index ∧
    posOf (prune (sumWorld 10 (fun ps => (.ok (), ps))
      (fun ps => ps.filter (fun p => !p.removable || decide (pos p < 3)))) pickBest exCluster
      [pk 1 false, pk 3 true, pk 4 true]).2 = [1] := by
  refine ⟨fun out => ⟨mergeAs_sorts, fun _ => List.forall₂_same.2 (fun _ _ => ⟨rfl, rfl, rfl, rfl, rfl, rfl⟩),
    fun _ => List.filter_sublist, ?_⟩, by decide +kernel, by decide +kernel⟩
  intro ps
  show (ps.filter _).filter _ = _
  rw [List.filter_filter]
  apply List.filter_congr
  intro p _
  cases p.removable <;> simp

/-- **C29, finding.** Pruning can make the model worse, although every single fit is taken back when it
does: the quality that decides is that of the model after the fit was taken back, while the parameters that
are adopted are those of the rejected fit.  Here removing the peak at 1 leaves 5, a perfect model; the fit
moves it to 9, which is rejected — and then adopted. -/
theorem c29_can_get_worse :
    posOf (prune (sumWorld 0 (fun ps => (.ok (), ps.map (fun p => { p with pars := [9] }))) id) pickBest
      exCluster [pk 1 true, pk 5 true]).2 = [9] ∧
    (sumQual 0 [] [pk 1 true, pk 5 true] 0).stat = some 1 ∧ (sumQual 0 [] [pk 9 true] 0).stat = some 4 := by
  refine ⟨?_, ?_, ?_⟩ <;> decide +kernel

/-- **C29, finding.** Pruning can stop although removing one more peak would improve the model: it goes on
only if a removal *other than the accepted one* was not worse than the model before it.  Of −2, 4, 5 only the
removal of 4 is an improvement, so the search stops at −2, 5 — although 5 alone is nearly perfect. -/
theorem c29_stops_early :
    errOf (prune (sumWorld (1/10) (fun ps => (.ok (), ps)) id) pickBest exCluster
      [pk (-2) true, pk 4 true, pk 5 true]).1 = none ∧
    posOf (prune (sumWorld (1/10) (fun ps => (.ok (), ps)) id) pickBest exCluster
      [pk (-2) true, pk 4 true, pk 5 true]).2 = [-2, 5] ∧
    (sumQual (1/10) [] [pk (-2) true, pk 5 true] 0).stat = some (22/10) ∧
    (sumQual (1/10) [] [pk 5 true] 0).stat = some (1/10) ∧
    posOf (prune (sumWorld (1/10) (fun ps => (.ok (), ps)) id) pickBest exCluster
      [pk (-2) true, pk 5 true]).2 = [5] := by
  refine ⟨?_, ?_, ?_, ?_, ?_⟩ <;> decide +kernel

/-- **C29, finding.** Fixed parameters are counted against a removal: the number of parameters a model without
peak `i` is charged for is its number of free ones *plus* the fixed parameters of peak `i` itself and of all
the peaks too far away to be refitted. -/
theorem c29_fixed_parameters_counted (best : List (Part K)) (i : ℕ) (p : Part K) (hp : best[i]? = some p)
    (hle : ∀ q ∈ best, q.npars false ≤ q.npars true) :
    (npars (seg best i) false : ℤ) + addpars best i =
      npars (best.eraseIdx i) false + (p.npars true - p.npars false : ℕ) +
        ((leftOf best i ++ rightOf best i best.length).map (fun q => q.npars true - q.npars false)).sum := by
  have hi := getElem?_lt hp
  have e1 := npars_eraseIdx best i p hp true
  have e2 := hle p (List.mem_of_getElem? hp)
  have e3 : ∀ m : List (Part K), (∀ q ∈ m, q.npars false ≤ q.npars true) →
      npars m true = npars m false + (m.map (fun q => q.npars true - q.npars false)).sum := by
    intro m hm
    induction m with
    | nil => rfl
    | cons a m ih =>
      have h1 := ih (fun q hq => hm q (List.mem_cons_of_mem _ hq))
      have h2 := hm a List.mem_cons_self
      unfold npars at h1 ⊢
      simp only [List.map_cons, List.sum_cons]
      omega
  have e4 := e3 (leftOf best i ++ rightOf best i best.length) (by
    intro q hq
    refine hle q ((List.eraseIdx_sublist best i).subset ?_)
    rw [← segments best i hi]
    rcases List.mem_append.1 hq with h | h <;> simp [h])
  rw [← segments best i hi, npars_append, npars_append] at e1
  rw [npars_append, npars_append] at e4
  rw [← segments best i hi]
  unfold addpars
  rw [hp, npars_append, npars_append]
  simp only [Option.map_some, Option.getD_some]
  omega

/-- Instance: a peak whose only parameter is fixed is kept although the model is better without it — 5 alone
costs nothing but the one parameter. -/
example : posOf (prune (sumWorld 1 (fun ps => (.ok (), ps)) id) pickBest exCluster
      [⟨boxOwner, [-1/2], [false], true, false, false⟩, pk 5 true]).2 = [-1/2, 5] ∧
    (sumQual 1 [] [⟨boxOwner, [-1/2], [false], true, false, false⟩, pk 5 true] 0).stat = some (3/2) ∧
    (sumQual 1 [] [pk 5 true] 0).stat = some 1 := by
  refine ⟨?_, ?_, ?_⟩ <;> decide +kernel

end Verif.Parts.ModelCluster
