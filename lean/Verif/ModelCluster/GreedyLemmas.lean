import Verif.ModelCluster.Greedy
import Verif.ModelCluster.Fit

/-!
# What `fit` keeps; lemmas for `augment` and `prune`
-/

set_option linter.unusedSectionVars false

namespace Verif.Parts.ModelCluster

open Verif.Py Verif.PeakList

variable {K : Type} [Field K] [LinearOrder K]

/-- What identifies a peak beside its parameter values: function, flags of free parameters, whether it may
be removed or change its function, whether it has the values that its function needs. -/
noncomputable def key (p : Part K) : Owner K × List Bool × Bool × Bool × Prop × ((ℕ → K → K) → ℕ → Option K) :=
  (p.owner, p.free, p.removable, p.staticOwner, Shaped p, Fixed p)

/-- The non-removable peaks, up to parameter values. -/
noncomputable def hard (m : List (Part K)) : List (Owner K × List Bool × Bool × Bool × Prop × ((ℕ → K → K) → ℕ → Option K)) :=
  (m.filter (fun p => !p.removable)).map key

/-- The peaks of `m'` are some of those of `m` up to parameter values and order, and no non-removable one
is missing. -/
structure Kept (m m' : List (Part K)) : Prop where
  sub : (m'.map key).Subperm (m.map key)
  hard : (hard m').Perm (hard m)

theorem Kept.refl (m : List (Part K)) : Kept m m := ⟨List.Subperm.refl _, List.Perm.refl _⟩

theorem Kept.trans {a b c : List (Part K)} (h1 : Kept a b) (h2 : Kept b c) : Kept a c :=
  ⟨h2.sub.trans h1.sub, h2.hard.trans h1.hard⟩

theorem Kept.of_perm {m m' : List (Part K)} (h : m'.Perm m) : Kept m m' :=
  ⟨(h.map key).subperm, (h.filter _).map key⟩

theorem Kept.length {m m' : List (Part K)} (h : Kept m m') : m'.length ≤ m.length := by
  have := h.sub.length_le
  simpa using this

theorem Kept.append {a a' b b' : List (Part K)} (h1 : Kept a a') (h2 : Kept b b') :
    Kept (a ++ b) (a' ++ b') := by
  constructor
  · rw [List.map_append, List.map_append]
    exact h1.sub.append h2.sub
  · unfold ModelCluster.hard
    rw [List.filter_append, List.filter_append, List.map_append, List.map_append]
    exact h1.hard.append h2.hard

theorem frame_key {p q : Part K} (h : Frame p q) : key q = key p := by
  unfold key; rw [h.owner, h.free, h.removable, h.static, h.shaped, h.fixed]

theorem Kept.of_frame {m m' : List (Part K)} (h : List.Forall₂ Frame m m') : Kept m m' := by
  have e1 : m'.map key = m.map key := by
    induction h with
    | nil => rfl
    | cons h1 _ ih => rw [List.map_cons, List.map_cons, ih, frame_key h1]
  have e2 : ModelCluster.hard m' = ModelCluster.hard m := by
    clear e1
    induction h with
    | nil => rfl
    | cons h1 _ ih =>
      unfold ModelCluster.hard at *
      rw [List.filter_cons, List.filter_cons, h1.removable]
      split
      · rw [List.map_cons, List.map_cons, ih, frame_key h1]
      · exact ih
  exact ⟨by rw [e1], by rw [e2]⟩

theorem Kept.of_sublist {m m' : List (Part K)} (h : m'.Sublist m)
    (hh : m'.filter (fun p => !p.removable) = m.filter (fun p => !p.removable)) : Kept m m' := by
  constructor
  · exact (h.map key).subperm
  · unfold ModelCluster.hard; rw [hh]

theorem Kept.eraseIdx {m : List (Part K)} {i : ℕ} {p : Part K} (hp : m[i]? = some p)
    (hr : p.removable = true) : Kept m (m.eraseIdx i) := by
  refine Kept.of_sublist (List.eraseIdx_sublist _ _) ?_
  induction m generalizing i with
  | nil => rfl
  | cons a m ih =>
    match i with
    | 0 =>
      simp only [List.getElem?_cons_zero, Option.some.injEq] at hp
      subst hp
      rw [List.eraseIdx_cons_zero, List.filter_cons_of_neg (by simp [hr])]
    | i + 1 =>
      rw [List.eraseIdx_cons_succ, List.filter_cons, List.filter_cons, ih (by simpa using hp)]

/-- What is known of the numerics: the optimiser changes parameter values only, the clean-up removes
removable peaks only, argsort sorts. -/
structure Tame (E : Env K) : Prop where
  sorts : SortsKeys E.as
  frame : ∀ ps, List.Forall₂ Frame ps (E.lsq ps).2
  clean : ∀ ps, (E.clean ps).Sublist ps
  hard : ∀ ps, (E.clean ps).filter (fun p => !p.removable) = ps.filter (fun p => !p.removable)

theorem fitCore_kept {E : Env K} (hT : Tame E) {o : Opts} (ho : o.fitbaseline = false) (c : Cluster K) :
    Kept c.model (fitCore E o c).2.1.model ∧ Kept c.model (fitCore E o c).2.2 ∧
    (fitCore E o c).2.1.neverFit = c.neverFit ∧ (fitCore E o c).2.1.baseline = c.baseline := by
  have hb : fitBaseline o c = none := by
    unfold fitBaseline; cases c.baseline <;> simp [ho]
  have hl : launch E o c = ((E.lsq c.model).1, (E.lsq c.model).2, c.baseline) := by
    unfold launch; rw [hb]
  have hf := Kept.of_frame (hT.frame c.model)
  have hm : Kept c.model (E.clean (sort E.as false pos (E.lsq c.model).2)) := by
    refine hf.trans ((Kept.of_perm (c37_sort hT.sorts false pos _).1).trans ?_)
    exact Kept.of_sublist (hT.clean _) (hT.hard _)
  unfold fitCore
  simp only [hl, hb]
  generalize hg : (E.lsq c.model).1 = g
  cases g with
  | error e =>
    cases e <;> exact ⟨by first | exact Kept.refl _ | exact hf, hf, rfl, rfl⟩
  | ok u =>
    simp only
    split
    · exact ⟨hm, hm, rfl, rfl⟩
    · exact ⟨Kept.refl _, hm, rfl, rfl⟩
    · split
      · exact ⟨Kept.refl _, hm, rfl, rfl⟩
      · exact ⟨hm, hm, rfl, rfl⟩

/-- Whatever happens in `fit` (also if it raises), both the cluster's model and the list object that was the
model hold the same peaks as before, up to removed removable ones. -/
theorem fit_kept {E : Env K} (hT : Tame E) {o : Opts} (ho : o.fitbaseline = false) (c : Cluster K)
    (hne : c.model ≠ [] ∨ o.estimate = false) :
    Kept c.model (fit E o c).2.1.model ∧ Kept c.model (fit E o c).2.2 ∧
    (fit E o c).2.1.neverFit = c.neverFit ∧ (fit E o c).2.1.baseline = c.baseline := by
  unfold fit
  split
  · exact ⟨Kept.refl _, Kept.refl _, rfl, rfl⟩
  · split
    · rename_i h0
      have he : o.estimate = false := by
        rcases hne with h | h
        · exact absurd h0 h
        · exact h
      rw [he, if_neg (by simp)]
      exact ⟨Kept.refl _, Kept.refl _, rfl, rfl⟩
    · exact fitCore_kept hT ho c

/-! ### Segments -/

theorem rightOf_eq (best : List (Part K)) (i n : ℕ) (hn : best.length ≤ n) :
    rightOf best i n = rightOf best i best.length := by
  unfold rightOf
  by_cases h : i + peakRange + 1 ≤ best.length
  · rw [Nat.min_eq_left (by omega), Nat.min_eq_left h]
  · rw [Nat.min_eq_right (by omega : best.length ≤ i + peakRange + 1), List.drop_eq_nil_of_le (by omega),
      List.drop_eq_nil_of_le (le_refl _)]

theorem segments (best : List (Part K)) (i : ℕ) (hi : i < best.length) :
    leftOf best i ++ seg best i ++ rightOf best i best.length = best.eraseIdx i := by
  rw [List.eraseIdx_eq_take_drop_succ]
  unfold leftOf seg rightOf getSlice
  simp only [bounds]
  generalize hpr : peakRange = r
  have e1 : min (i - r) best.length = i - r := by omega
  have e2 : max (min (i - r) best.length) (min i best.length) - min (i - r) best.length = i - (i - r) := by omega
  have e3 : min (i + 1) best.length = i + 1 := by omega
  generalize hh : min (i + r + 1) best.length = hi'
  have e4 : max (min (i + 1) best.length) (min hi' best.length) - min (i + 1) best.length = hi' - (i + 1) := by
    omega
  rw [e2, e4, e1, e3]
  have hA : best.take (i - r) ++ (best.drop (i - r)).take (i - (i - r)) = best.take i := by
    have := List.take_add (l := best) (i := i - r) (j := i - (i - r))
    rw [← this]
    congr 1
    omega
  have hB : (best.drop (i + 1)).take (hi' - (i + 1)) ++ best.drop hi' = best.drop (i + 1) := by
    have : best.drop hi' = (best.drop (i + 1)).drop (hi' - (i + 1)) := by
      rw [List.drop_drop]; congr 1; omega
    rw [this, List.take_append_drop]
  rw [← List.append_assoc, hA, List.append_assoc, hB]

theorem checks_spec {P : PruneEnv K} (hT : ∀ out, Tame (P.env out)) (best : List (Part K)) :
    ∀ (is : List ℕ) (mc : Cluster K) cs mc', checks P best mc is = (.ok cs, mc') →
      ∀ (i : ℕ) (q : Evaluator.Ev K) (l : List (Part K)), (i, q, l) ∈ cs → i ∈ is ∧ ∃ (p : Part K) (mcI : Cluster K), best[i]? = some p ∧ p.removable = true ∧
        Kept (seg best i) l ∧
        q = P.qual (leftOf best i ++ rightOf best i best.length)
          (fit (P.env (leftOf best i ++ rightOf best i best.length)) { estimate := false }
            { mcI with model := seg best i }).2.1.model (addpars best i) ∧
        l = (fit (P.env (leftOf best i ++ rightOf best i best.length)) { estimate := false }
            { mcI with model := seg best i }).2.2 := by
  intro is
  induction is with
  | nil =>
    intro mc cs mc' h i q l hm
    simp only [checks, Prod.mk.injEq, Except.ok.injEq] at h
    rw [← h.1] at hm
    simp at hm
  | cons j is ih =>
    intro mc cs mc' h i q l hm
    unfold checks at h
    by_cases hj : (best[j]?.map (fun p => p.removable)).getD false = true
    · rw [if_pos hj] at h
      obtain ⟨p, hp, hpr⟩ : ∃ p, best[j]? = some p ∧ p.removable = true := by
        cases hb : best[j]? with
        | none => rw [hb] at hj; simp at hj
        | some p => rw [hb] at hj; exact ⟨p, rfl, by simpa using hj⟩
      cases hc : checkOne P mc best j with
      | mk r mc1 =>
        rw [hc] at h
        cases r with
        | error e => simp at h
        | ok ql =>
          obtain ⟨q0, l0⟩ := ql
          simp only at h
          cases hcs : checks P best mc1 is with
          | mk r2 mc2 =>
            rw [hcs] at h
            cases r2 with
            | error e => simp at h
            | ok cs' =>
              simp only [Prod.mk.injEq, Except.ok.injEq] at h
              rw [← h.1] at hm
              rcases List.mem_cons.1 hm with hm | hm
              · simp only [Prod.mk.injEq] at hm
                obtain ⟨rfl, rfl, rfl⟩ := hm
                refine ⟨List.mem_cons_self, p, mc, hp, hpr, ?_⟩
                unfold checkOne at hc
                simp only at hc
                have hk := fit_kept (hT (leftOf best i ++ rightOf best i best.length))
                  (o := { estimate := false }) rfl { mc with model := seg best i } (Or.inr rfl)
                generalize fit (P.env (leftOf best i ++ rightOf best i best.length)) { estimate := false }
                  { mc with model := seg best i } = f at hc hk
                obtain ⟨f1, f2, f3⟩ := f
                cases f1 with
                | error e => simp at hc
                | ok o =>
                  simp only [Prod.mk.injEq, Except.ok.injEq] at hc
                  obtain ⟨⟨rfl, rfl⟩, rfl⟩ := hc
                  exact ⟨hk.2.1, rfl, rfl⟩
              · obtain ⟨a, b⟩ := ih mc1 cs' mc2 hcs i q l hm
                exact ⟨List.mem_cons_of_mem _ a, b⟩
    · rw [if_neg hj] at h
      obtain ⟨a, b⟩ := ih mc cs mc' h i q l hm
      exact ⟨List.mem_cons_of_mem _ a, b⟩

theorem getElem?_lt {α : Type} {l : List α} {i : ℕ} {a : α} (h : l[i]? = some a) : i < l.length := by
  by_contra hc
  rw [List.getElem?_eq_none (by omega)] at h
  simp at h

/-- The start of the final fit of a round: the best model without the chosen peak, up to parameter values. -/
theorem round_kept {best : List (Part K)} {i origLen : ℕ} {p : Part K} {l : List (Part K)}
    (hp : best[i]? = some p) (hr : p.removable = true) (hl : Kept (seg best i) l) (ho : best.length ≤ origLen) :
    Kept best (leftOf best i ++ l ++ rightOf best i origLen) ∧
    (leftOf best i ++ l ++ rightOf best i origLen).length < best.length := by
  have hi := getElem?_lt hp
  have h1 : Kept (best.eraseIdx i) (leftOf best i ++ l ++ rightOf best i origLen) := by
    rw [rightOf_eq best i origLen ho, ← segments best i hi]
    exact ((Kept.refl _).append hl).append (Kept.refl _)
  refine ⟨(Kept.eraseIdx hp hr).trans h1, ?_⟩
  have h2 := h1.length
  rw [List.length_eraseIdx, if_pos hi] at h2
  omega

end Verif.Parts.ModelCluster
