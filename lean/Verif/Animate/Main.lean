import Mathlib.Tactic.Linarith
import Mathlib.Data.List.Forall2
import Verif.Animate.Model
import Verif.ModelCluster.Props
import Verif.ModelCluster.Fit
import Verif.ModelCluster.Prune

/-!
# C121: animations of a multimodel selection
-/

namespace Verif.Parts.Animate

open Verif.Py Verif.PeakList Verif.Parts.ModelCluster Verif.Multimodel

set_option linter.unusedSectionVars false

variable {K B D : Type} [Zero K] [LinearOrder K] [DecidableEq D]

/-! ### Specification -/

/-- The best model at `dg`: the last of the ranking `sortedprobs[dg]`. -/
def Best {R : Type} (st : State R D) (dg : D) (b : ℕ) : Prop := ∃ l, st.sortedprobs dg = some l ∧ l.getLast? = some b

/-- The best class at `dg`. -/
def BestClass {R : Type} (st : State R D) (dg : D) (c : ℕ) : Prop := ∃ l, st.sortedclassprobs dg = some l ∧ l.getLast? = some c

/-- The best model of a class at `dg`. -/
def BestOfClass {R : Type} (st : State R D) (dg : D) (c i : ℕ) : Prop :=
  ∃ l cls, st.sortedclasses dg = some l ∧ l[c]? = some cls ∧ cls.getLast? = some i

/-- The last in a list that is not `a`. -/
def LastOther (a : ℕ) (bs : List ℕ) (b : ℕ) : Prop := ∃ pre post, bs = pre ++ b :: post ∧ b ≠ a ∧ ∀ c ∈ post, c = a

/-- The peaks of a model, in the order of their positions. -/
def SamePeaks (m m' : List (Part K)) : Prop := m.Perm m' ∧ m.Pairwise (fun p q => pos p ≤ pos q)

/-! ### Lemmas -/

theorem lookEnd_last {α : Type} {d : D → Option (List α)} {k : D} {b : α} (h : lookEnd d k 0 = .ok b) : ∃ l, d k = some l ∧ l.getLast? = some b := by
  unfold lookEnd look at h
  cases e : d k with
  | none => rw [e] at h; cases h
  | some l =>
    rw [e] at h
    simp only [fromEnd] at h
    split at h
    · cases h
    · rename_i a ha
      cases h
      exact ⟨l, rfl, by rw [← List.head?_reverse, List.head?_eq_getElem?]; exact ha⟩

theorem bestNow_ok {R : Type} {st : State R D} {dg : D} {b : ℕ} (h : bestNow st dg = .ok b) : Best st dg b := by
  unfold bestNow at h
  split at h
  · cases h
  · exact lookEnd_last h

theorem nth_ok {α : Type} {l : List α} {i : ℕ} {v : α} (h : nth l i = .ok v) : l[i]? = some v := by
  unfold nth at h
  split at h
  · cases h
  · rename_i e; cases h; exact e

theorem replace_all {as : List K → List ℕ} (has : SortsKeys as) {m new m' : List (Part K)}
    (h : replacepeaks as m new 0 m.length = (.ok (), m')) : SamePeaks m' new := by
  obtain ⟨h1, h2⟩ := c26_replacepeaks has m new 0 m.length (Nat.zero_le _) (le_refl _)
  by_cases hr : ∃ i p, 0 ≤ i ∧ i < m.length ∧ m[i]? = some p ∧ p.removable = false
  · rw [h1 hr] at h
    cases h
  · obtain ⟨-, h4, h5⟩ := h2 (fun i p a b c => by
      by_contra hc
      exact hr ⟨i, p, a, b, c, by simpa using hc⟩)
    rw [h] at h4 h5
    simp only [List.take_zero, List.drop_length, List.nil_append] at h4
    exact ⟨h4, h5⟩

theorem put_ok {as : List K → List ℕ} (has : SortsKeys as) {rs rs' : List (Entry K B)} {a b : ℕ} (h : put as rs a b = (.ok (), rs')) :
    ∃ ma mb m, rs[a]? = some ma ∧ rs[b]? = some mb ∧ SamePeaks m mb.1 ∧ rs' = rs.set a (m, ma.2) := by
  unfold put at h
  split at h
  · rename_i ma mb ha hb
    split at h
    · cases h
    · rename_i m hm
      simp only [Prod.mk.injEq, true_and] at h
      exact ⟨ma, mb, m, ha, hb, replace_all has hm, h.symm⟩
  · cases h

theorem put_others {as : List K → List ℕ} {rs rs' : List (Entry K B)} {a b : ℕ} {u : Res Unit} (h : put as rs a b = (u, rs')) :
    rs'.length = rs.length ∧ ∀ j, j ≠ a → rs'[j]? = rs[j]? := by
  unfold put at h
  split at h
  · split at h
    · simp only [Prod.mk.injEq] at h
      rw [← h.2]
      exact ⟨rfl, fun _ _ => rfl⟩
    · simp only [Prod.mk.injEq] at h
      rw [← h.2]
      exact ⟨List.length_set, fun j hj => List.getElem?_set_ne (Ne.symm hj)⟩
  · simp only [Prod.mk.injEq] at h
    rw [← h.2]
    exact ⟨rfl, fun _ _ => rfl⟩

theorem loop_others (as : List K → List ℕ) (st : State (Entry K B) D) (a : ℕ) : ∀ (dgs : List D) (best : ℕ) (rs : List (Entry K B)),
    (loop as st a dgs best rs).2.length = rs.length ∧ ∀ j, j ≠ a → (loop as st a dgs best rs).2[j]? = rs[j]? := by
  intro dgs
  induction dgs with
  | nil => exact fun _ _ => ⟨rfl, fun _ _ => rfl⟩
  | cons dg dgs ih =>
    intro best rs
    rw [loop]
    split
    · exact ⟨rfl, fun _ _ => rfl⟩
    · rename_i b _
      have hput : ∀ u rs', (if b = best then (.ok (), rs) else put as rs a b : Res Unit × List (Entry K B)) = (u, rs') →
          rs'.length = rs.length ∧ ∀ j, j ≠ a → rs'[j]? = rs[j]? := by
        intro u rs' h
        split at h
        · simp only [Prod.mk.injEq] at h
          rw [← h.2]
          exact ⟨rfl, fun _ _ => rfl⟩
        · exact put_others h
      split
      · rename_i e rs' h
        exact hput _ _ h
      · rename_i rs' h
        obtain ⟨p1, p2⟩ := hput _ _ h
        split
        · have := ih b rs'
          split
          · rename_i h'
            rw [h'] at this
            exact ⟨this.1.trans p1, fun j hj => (this.2 j hj).trans (p2 j hj)⟩
          · rename_i h'
            rw [h'] at this
            exact ⟨this.1.trans p1, fun j hj => (this.2 j hj).trans (p2 j hj)⟩
        · exact ⟨p1, p2⟩
        · exact ⟨p1, p2⟩

theorem LastOther.snoc {a b : ℕ} {pre : List ℕ} {c : ℕ} (h : LastOther a (pre ++ [c]) b) : (c ≠ a ∧ b = c) ∨ (c = a ∧ LastOther a pre b) := by
  obtain ⟨p, q, h1, h2, h3⟩ := h
  rcases List.eq_nil_or_concat q with rfl | ⟨q', d, rfl⟩
  · obtain ⟨-, h4⟩ := List.append_inj' h1 rfl
    simp only [List.cons.injEq, and_true] at h4
    exact .inl ⟨h4 ▸ h2, h4.symm⟩
  · rw [List.concat_eq_append, ← List.cons_append, ← List.append_assoc] at h1
    obtain ⟨h4, h5⟩ := List.append_inj' h1 rfl
    simp only [List.cons.injEq, and_true] at h5
    exact .inr ⟨by rw [h5]; exact h3 d (by simp), p, q', h4, h2, fun x hx => h3 x (by simp [hx])⟩

theorem lastOther_of_last {a b : ℕ} {pre : List ℕ} (h : pre.getLast? = some b) (hb : b ≠ a) : LastOther a pre b := by
  obtain ⟨l, rfl⟩ := List.getLast?_eq_some_iff.1 h
  exact ⟨l, [], rfl, hb, fun _ h => absurd h (by simp)⟩

/-- What is known of the result whose model the cluster has, after the bests `pre`. -/
def Shows (rs : List (Entry K B)) (a : ℕ) (pre : List ℕ) (f : Entry K B) : Prop :=
  (∃ o, rs[a]? = some o ∧ f.2 = o.2 ∧ ((∀ b ∈ pre, b = a) → f = o)) ∧
    ∀ b, LastOther a pre b → ∃ r, rs[b]? = some r ∧ SamePeaks f.1 r.1

theorem shows_put {as : List K → List ℕ} (has : SortsKeys as) {rs0 rs rs' : List (Entry K B)} {a b best : ℕ} {pre : List ℕ} {f : Entry K B}
    (hothers : ∀ j, j ≠ a → rs[j]? = rs0[j]?) (hf : rs[a]? = some f) (hS : Shows rs0 a pre f) (hl : pre.getLast? = some best)
    (h : (if b = best then (.ok (), rs) else put as rs a b : Res Unit × List (Entry K B)) = (.ok (), rs')) :
    (∀ j, j ≠ a → rs'[j]? = rs0[j]?) ∧ ∃ f', rs'[a]? = some f' ∧ Shows rs0 a (pre ++ [b]) f' := by
  obtain ⟨⟨o, o1, o2, o3⟩, hother⟩ := hS
  by_cases hb : b = best
  · rw [if_pos hb] at h
    simp only [Prod.mk.injEq, true_and] at h
    subst h
    subst hb
    refine ⟨hothers, f, hf, ⟨o, o1, o2, fun h => o3 (fun x hx => h x (by simp [hx]))⟩, fun c hc => ?_⟩
    rcases hc.snoc with ⟨h1, rfl⟩ | ⟨-, h2⟩
    · exact hother _ (lastOther_of_last hl h1)
    · exact hother c h2
  · rw [if_neg hb] at h
    obtain ⟨ma, mb, m, e1, e2, e3, rfl⟩ := put_ok has h
    rw [hf] at e1
    cases e1
    have ha : a < rs.length := (List.getElem?_eq_some_iff.1 hf).1
    refine ⟨fun j hj => (List.getElem?_set_ne (Ne.symm hj)).trans (hothers j hj), (m, f.2), List.getElem?_set_self ha, ⟨o, o1, o2, fun h => ?_⟩, fun c hc => ?_⟩
    · exfalso
      apply hb
      rw [h b (by simp), h best (by
        obtain ⟨l, rfl⟩ := List.getLast?_eq_some_iff.1 hl
        simp)]
    · rcases hc.snoc with ⟨h1, rfl⟩ | ⟨h1, h2⟩
      · rw [hothers _ h1] at e2
        exact ⟨mb, e2, e3⟩
      · subst h1
        rw [hf] at e2
        cases e2
        obtain ⟨r, r1, r2⟩ := hother c h2
        exact ⟨r, r1, e3.1.trans r2.1, e3.2⟩

theorem loop_ok {as : List K → List ℕ} (has : SortsKeys as) {st : State (Entry K B) D} {a : ℕ} {rs0 : List (Entry K B)} :
    ∀ {dgs : List D} {best : ℕ} {rs rs' : List (Entry K B)} {fs : List (Entry K B)} {pre : List ℕ} {f : Entry K B},
      loop as st a dgs best rs = (.ok fs, rs') → (∀ j, j ≠ a → rs[j]? = rs0[j]?) → rs[a]? = some f → Shows rs0 a pre f →
      pre.getLast? = some best →
      ∃ bests, List.Forall₂ (Best st) dgs bests ∧ fs.length = dgs.length ∧
        (∀ k g, fs[k]? = some g → Shows rs0 a (pre ++ bests.take (k + 1)) g) ∧ rs'[a]? = (f :: fs).getLast? := by
  intro dgs
  induction dgs with
  | nil =>
    intro best rs rs' fs pre f h h1 h2 h3 h4
    rw [loop] at h
    cases h
    exact ⟨[], .nil, rfl, fun k g hg => by simp at hg, h2⟩
  | cons dg dgs ih =>
    intro best rs rs' fs pre f h h1 h2 h3 h4
    rw [loop] at h
    split at h
    · cases h
    · rename_i b hb
      split at h
      · cases h
      · rename_i rs1 hput
        obtain ⟨p1, f', p2, p3⟩ := shows_put has h1 h2 h3 h4 hput
        split at h
        · rename_i g _ hg
          have hgf := nth_ok hg
          rw [p2] at hgf
          cases hgf
          split at h
          · cases h
          · rename_i fs' rs2 hl
            simp only [Prod.mk.injEq, Except.ok.injEq] at h
            obtain ⟨rfl, rfl⟩ := h
            obtain ⟨bests, q1, q2, q3, q4⟩ := ih hl p1 p2 p3 (by simp)
            refine ⟨b :: bests, .cons (bestNow_ok hb) q1, by simp [q2], ?_, ?_⟩
            · intro k x hx
              cases k with
              | zero =>
                simp only [List.getElem?_cons_zero, Option.some.injEq] at hx
                subst hx
                simpa using p3
              | succ k =>
                simp only [List.getElem?_cons_succ] at hx
                have := q3 k x hx
                rwa [List.append_assoc, List.singleton_append] at this
            · rw [q4]
              rfl
        · cases h
        · cases h

/-! ### The properties -/

/-- **C121, finding.** If `animate_probs` returns, there is a best model `b` at each `dg` of `dgs`; let `a` be that at the first.  What
is shown at a `dg` is `a`'s model as long as `a` has been the best; afterwards it is the peaks of the last best model other than `a`:
also if `a` is the best again (`c121_wrong`).  The baseline shown is always that of `a`.  And what was shown last is now
the model of result `a`; no other result is changed, whatever happens. -/
theorem c121_probs {as : List K → List ℕ} (has : SortsKeys as) (setcurrent : ℕ → Res Unit) (st : State (Entry K B) D)
    (fs rs : List (Entry K B)) (h : animateProbs as setcurrent st = (.ok fs, rs)) :
    ∃ a bests orig, List.Forall₂ (Best st) st.dgs (a :: bests) ∧ st.results[a]? = some orig ∧ fs.length = st.dgs.length ∧
      (∀ k f, fs[k]? = some f → f.2 = orig.2 ∧ ((∀ b ∈ bests.take k, b = a) → f = orig) ∧
        ∀ b, LastOther a (bests.take k) b → ∃ r, st.results[b]? = some r ∧ SamePeaks f.1 r.1) ∧
      rs[a]? = fs.getLast? ∧ rs.length = st.results.length ∧ ∀ j, j ≠ a → rs[j]? = st.results[j]? := by
  unfold animateProbs at h
  split at h
  · cases h
  · rename_i dg dgs hd
    split at h
    · rename_i a ps ha hps
      split at h
      · cases h
      · split at h
        · rename_i f _ _ hf
          have hf := nth_ok hf
          split at h
          · cases h
          · rename_i fs' rs' hl
            simp only [Prod.mk.injEq, Except.ok.injEq] at h
            obtain ⟨rfl, rfl⟩ := h
            have hs : Shows st.results a [a] f := ⟨⟨f, hf, rfl, fun _ => rfl⟩, fun b hb => by
              exfalso
              rcases LastOther.snoc (pre := []) hb with ⟨h1, -⟩ | ⟨-, p, q, h1, -⟩
              · exact h1 rfl
              · simp at h1⟩
            have hoth := loop_others as st a dgs a st.results
            rw [hl] at hoth
            obtain ⟨bests, q1, q2, q3, q4⟩ := loop_ok has hl (fun _ _ => rfl) hf hs rfl
            have hall : ∀ k g, (f :: fs')[k]? = some g → Shows st.results a (a :: bests.take k) g := by
              intro k g hg
              cases k with
              | zero =>
                simp only [List.getElem?_cons_zero, Option.some.injEq] at hg
                subst hg
                exact hs
              | succ k => exact q3 k g hg
            refine ⟨a, bests, f, ?_, hf, ?_, ?_, q4, hoth.1, hoth.2⟩
            · rw [hd]
              exact .cons (lookEnd_last ha) q1
            · rw [hd]; simp [q2]
            · intro k g hg
              obtain ⟨⟨o, o1, o2, o3⟩, hother⟩ := hall k g hg
              rw [hf] at o1
              cases o1
              refine ⟨o2, fun hb => o3 (by simpa using hb), fun b hb => ?_⟩
              obtain ⟨p, q, e1, e2, e3⟩ := hb
              exact hother b ⟨a :: p, q, by rw [e1]; rfl, e2, e3⟩
        all_goals cases h
    all_goals cases h

/-- **C121, finding.** The best model at three `dg` is `a`, then `b`, then `a` again: what is shown at the third is still the peaks of `b`
(with the baseline of `a`), and this is from now on the result `a`. -/
theorem c121_wrong {as : List K → List ℕ} (has : SortsKeys as) (setcurrent : ℕ → Res Unit) (st : State (Entry K B) D)
    (fs rs : List (Entry K B)) (h : animateProbs as setcurrent st = (.ok fs, rs)) {d1 d2 d3 : D} (hd : st.dgs = [d1, d2, d3]) {a b : ℕ} (hab : b ≠ a)
    (h1 : Best st d1 a) (h2 : Best st d2 b) (h3 : Best st d3 a) {ra rb : Entry K B} (ha : st.results[a]? = some ra) (hb : st.results[b]? = some rb) :
    ∃ f, fs[2]? = some f ∧ SamePeaks f.1 rb.1 ∧ f.2 = ra.2 ∧ rs[a]? = some f := by
  obtain ⟨a', bests, orig, q1, q2, q3, q4, q5, -⟩ := c121_probs has setcurrent st fs rs h
  have uniq : ∀ {dg : D} {x y : ℕ}, Best st dg x → Best st dg y → x = y := by
    rintro dg x y ⟨l, e1, e2⟩ ⟨l', e3, e4⟩
    rw [e1] at e3
    cases e3
    rw [e2] at e4
    exact Option.some.inj e4
  rw [hd] at q1 q3
  cases q1 with
  | cons c1 q1 =>
    cases q1 with
    | cons c2 q1 =>
      cases q1 with
      | cons c3 q1 =>
        cases q1
        have e1 := uniq h1 c1
        have e2 := uniq h2 c2
        have e3 := uniq h3 c3
        subst e1
        subst e2
        subst e3
        rw [ha] at q2
        cases q2
        obtain ⟨f0, f1, f2, rfl⟩ : ∃ f0 f1 f2, fs = [f0, f1, f2] := by
          match fs, q3 with
          | [f0, f1, f2], _ => exact ⟨f0, f1, f2, rfl⟩
        obtain ⟨g1, -, g3⟩ := q4 2 f2 rfl
        obtain ⟨r, r1, r2⟩ := g3 b ⟨[], [a], rfl, hab, fun c hc => by simpa using hc⟩
        rw [hb] at r1
        cases r1
        exact ⟨f2, rfl, r2, g1, q5⟩

/-! ### `animate_classprobs` -/

theorem classNow_ok {R : Type} {st : State R D} {dg : D} {c : ℕ} (h : classNow st dg = .ok c) : BestClass st dg c := by
  unfold classNow at h
  split at h
  · cases h
  · rename_i c' hc
    cases hl : lookNth st.classprobs dg c' with
    | error e => rw [hl] at h; cases h
    | ok v =>
      rw [hl] at h
      cases h
      exact lookEnd_last hc

theorem lookClass_ok {R : Type} {st : State R D} {dg : D} {c i : ℕ} (h : lookClass st dg c 0 = .ok i) : BestOfClass st dg c i := by
  unfold lookClass lookNth look at h
  cases e : st.sortedclasses dg with
  | none => rw [e] at h; cases h
  | some l =>
    rw [e] at h
    simp only at h
    cases e2 : nth l c with
    | error x => rw [e2] at h; cases h
    | ok cls =>
      rw [e2] at h
      simp only [fromEnd] at h
      split at h
      · cases h
      · rename_i a ha
        cases h
        exact ⟨l, cls, e, nth_ok e2, by rw [← List.head?_reverse, List.head?_eq_getElem?]; exact ha⟩

/-- What is shown at place `k`: the best model, at the first `dg` of the run of places with the same best class up to `k`, of that class. -/
def ClassShown (st : State (Entry K B) D) (dgs : List D) (cs : List ℕ) (k : ℕ) (f : Entry K B) : Prop :=
  ∃ j ≤ k, ∃ dg c i, dgs[j]? = some dg ∧ (∀ l, j ≤ l → l ≤ k → cs[l]? = some c) ∧ (∀ l, l + 1 = j → cs[l]? ≠ some c) ∧
    BestOfClass st dg c i ∧ ∃ r, st.results[i]? = some r ∧ f.1.Perm r.1 ∧ (0 < j → SamePeaks f.1 r.1) ∧ (j = 0 → f.1 = r.1)

theorem classLoop_ok {as : List K → List ℕ} (has : SortsKeys as) {st : State (Entry K B) D} :
    ∀ {dgs : List D} {cls : ℕ} {m : Entry K B} {fs : List (Entry K B)} {dgs0 : List D} {cs0 : List ℕ} {k0 : ℕ},
      classLoop as st dgs cls m = .ok fs → dgs0.length = k0 + 1 → cs0.length = k0 + 1 → cs0[k0]? = some cls →
      ClassShown st dgs0 cs0 k0 m →
      ∃ cs, List.Forall₂ (BestClass st) dgs cs ∧ fs.length = dgs.length ∧
        ∀ k f, fs[k]? = some f → f.2 = m.2 ∧ ClassShown st (dgs0 ++ dgs) (cs0 ++ cs) (k0 + 1 + k) f := by
  intro dgs
  induction dgs with
  | nil =>
    intro cls m fs dgs0 cs0 k0 h _ _ _ _
    rw [classLoop] at h
    cases h
    exact ⟨[], .nil, rfl, fun k f hk => by simp at hk⟩
  | cons dg dgs ih =>
    intro cls m fs dgs0 cs0 k0 h hdl hcl hlast hs
    rw [classLoop] at h
    split at h
    · cases h
    · rename_i c hc
      split at h
      · cases h
      · rename_i m' hm
        split at h
        · cases h
        · rename_i fs' hl
          simp only [Except.ok.injEq] at h
          subst h
          have key : m'.2 = m.2 ∧ ClassShown st (dgs0 ++ [dg]) (cs0 ++ [c]) (k0 + 1) m' := by
            split at hm
            · rename_i hcc
              simp only [Except.ok.injEq] at hm
              subst hm
              subst hcc
              refine ⟨rfl, ?_⟩
              obtain ⟨j, hj, d, c', i, s1, s2, s3, s4⟩ := hs
              have : c' = c := by
                have := s2 k0 hj (le_refl _)
                rw [hlast] at this
                exact (Option.some.inj this).symm
              subst this
              refine ⟨j, by omega, d, c', i, ?_, fun l h1 h2 => ?_, fun l hl => ?_, s4⟩
              · rw [List.getElem?_append_left (by omega)]; exact s1
              · by_cases hk : l = k0 + 1
                · subst hk
                  rw [List.getElem?_append_right (by omega), hcl]; simp
                · rw [List.getElem?_append_left (by omega)]; exact s2 l h1 (by omega)
              · rw [List.getElem?_append_left (by omega)]; exact s3 l hl
            · rename_i hcc
              split at hm
              · cases hm
              · rename_i i hi
                split at hm
                · cases hm
                · rename_i r hr
                  split at hm
                  · cases hm
                  · rename_i m2 hm2
                    simp only [Except.ok.injEq] at hm
                    subst hm
                    have hp := replace_all has hm2
                    refine ⟨rfl, k0 + 1, le_refl _, dg, c, i, ?_, fun l h1 h2 => ?_, fun l hl => ?_, lookClass_ok hi, r, nth_ok hr, hp.1, fun _ => hp, fun h0 => by omega⟩
                    · rw [List.getElem?_append_right (by omega), hdl]; simp
                    · obtain rfl : l = k0 + 1 := by omega
                      rw [List.getElem?_append_right (by omega), hcl]; simp
                    · obtain rfl : l = k0 := by omega
                      rw [List.getElem?_append_left (by omega), hlast]
                      exact fun h => hcc (Option.some.inj h).symm
          obtain ⟨cs, q1, q2, q3⟩ := ih hl (dgs0 := dgs0 ++ [dg]) (cs0 := cs0 ++ [c]) (k0 := k0 + 1) (by simp [hdl]) (by simp [hcl])
            (by rw [List.getElem?_append_right (by omega), hcl]; simp) key.2
          refine ⟨c :: cs, .cons (classNow_ok hc) q1, by simp [q2], fun k f hk => ?_⟩
          cases k with
          | zero =>
            simp only [List.getElem?_cons_zero, Option.some.injEq] at hk
            subst hk
            refine ⟨key.1, ?_⟩
            obtain ⟨j, hj, d, c', i, s1, s2, s3, s4⟩ := key.2
            have e1 : dgs0 ++ dg :: dgs = dgs0 ++ [dg] ++ dgs := by simp
            have e2 : cs0 ++ c :: cs = cs0 ++ [c] ++ cs := by simp
            refine ⟨j, hj, d, c', i, ?_, fun l h1 h2 => ?_, fun l hl => ?_, s4⟩
            · rw [e1, List.getElem?_append_left (by simp; omega)]; exact s1
            · rw [e2, List.getElem?_append_left (by simp; omega)]; exact s2 l h1 h2
            · rw [e2, List.getElem?_append_left (by simp; omega)]; exact s3 l hl
          | succ k =>
            simp only [List.getElem?_cons_succ] at hk
            obtain ⟨t1, t2⟩ := q3 k f hk
            refine ⟨t1.trans key.1, ?_⟩
            rw [List.append_assoc, List.append_assoc, List.singleton_append, List.singleton_append] at t2
            have e : k0 + 1 + 1 + k = k0 + 1 + (k + 1) := by omega
            rw [e] at t2
            exact t2

/-- **C121.** `animate_classprobs` shows at each `dg` a model of the class that is the best there: the best of that class
at the `dg` at which that class became the best (finding: the best model of the class may be another by now), with the baseline of the
first model shown (finding). -/
theorem c121_classes {as : List K → List ℕ} (has : SortsKeys as) (setcurrent : ℕ → Res Unit) (st : State (Entry K B) D)
    (fs : List (Entry K B)) (h : animateClassprobs as setcurrent st = .ok fs) :
    ∃ cs f0, List.Forall₂ (BestClass st) st.dgs cs ∧ fs.length = st.dgs.length ∧ fs[0]? = some f0 ∧ f0 ∈ st.results ∧
      ∀ k f, fs[k]? = some f → f.2 = f0.2 ∧ ClassShown st st.dgs cs k f := by
  unfold animateClassprobs at h
  split at h
  · cases h
  · rename_i dg dgs hd
    split at h
    · cases h
    · rename_i c hc
      split at h
      · cases h
      · rename_i i hi
        split at h
        · rename_i f _ _ hf
          split at h
          · cases h
          · rename_i fs' hl
            simp only [Except.ok.injEq] at h
            subst h
            have hf := nth_ok hf
            have base : ∀ dgs cs, ClassShown st (dg :: dgs) (c :: cs) 0 f := fun dgs cs =>
              ⟨0, le_refl _, dg, c, i, rfl, fun l _ h2 => (by obtain rfl : l = 0 := by omega
                                                              rfl), fun l hl => (by omega), lookClass_ok hi, f, hf, List.Perm.refl _, fun h => (by omega), fun _ => rfl⟩
            obtain ⟨cs, q1, q2, q3⟩ := classLoop_ok has hl (dgs0 := [dg]) (cs0 := [c]) (k0 := 0) rfl rfl rfl (base [] [])
            rw [hd]
            refine ⟨c :: cs, f, .cons (classNow_ok hc) q1, by simp [q2], rfl, List.mem_of_getElem? hf, fun k g hk => ?_⟩
            cases k with
            | zero =>
              simp only [List.getElem?_cons_zero, Option.some.injEq] at hk
              subst hk
              exact ⟨rfl, base dgs cs⟩
            | succ k =>
              simp only [List.getElem?_cons_succ] at hk
              have := q3 k g hk
              rw [show 0 + 1 + k = k + 1 by omega] at this
              exact this
        all_goals cases h

/-! ### Examples -/

/-- Three results with one peak each, at 1, 2, 3; three uncertainties; the best is the first, then the second, then the first again. -/
noncomputable def exState : State (Entry ℚ ℕ) ℕ :=
  { (State.new : State (Entry ℚ ℕ) ℕ) with
    results := [([pk 1 true], 10), ([pk 2 true], 20), ([pk 3 true], 30)]
    dgs := [5, 6, 7]
    aicprobs := fun _ => some [0, 0, 0]
    sortedprobs := fun d => if d = 6 then some [0, 2, 1] else some [2, 1, 0]
    classprobs := fun _ => some [0, 0]
    sortedclassprobs := fun d => if d = 7 then some [0, 1] else some [1, 0]
    sortedclasses := fun d => if d = 6 then some [[0, 2], [1]] else some [[2, 0], [1]] }

/-- Positions and baselines. -/
def seen (l : List (Entry ℚ ℕ)) : List (List ℚ × ℕ) := l.map (fun e => (e.1.map pos, e.2))

/-- Instance of `c121_probs`, `c121_wrong`: at the third uncertainty the peak of the second result is shown, and the first result has it now. -/
example : SortsKeys (mergeAs (K := ℚ)) ∧ Best exState 5 0 ∧ Best exState 6 1 ∧ Best exState 7 0 ∧
    (animateProbs mergeAs (fun _ => .ok ()) exState).1.toOption.map seen = some [([1], 10), ([2], 10), ([2], 10)] ∧
    seen (animateProbs mergeAs (fun _ => .ok ()) exState).2 = [([2], 10), ([2], 20), ([3], 30)] :=
  ⟨mergeAs_sorts, ⟨_, rfl, rfl⟩, ⟨_, rfl, rfl⟩, ⟨_, rfl, rfl⟩, by decide +kernel, by decide +kernel⟩

/-- Instance of `c121_classes`: at the second uncertainty the best of the class is the third result, but the first is still shown; at
the third another class is the best. -/
example : BestClass exState 5 0 ∧ BestClass exState 6 0 ∧ BestOfClass exState 6 0 2 ∧ BestClass exState 7 1 ∧
    (animateClassprobs mergeAs (fun _ => .ok ()) exState).toOption.map seen = some [([1], 10), ([1], 10), ([2], 10)] :=
  ⟨⟨_, rfl, rfl⟩, ⟨_, rfl, rfl⟩, ⟨_, _, rfl, rfl, rfl⟩, ⟨_, rfl, rfl⟩, by decide +kernel⟩

end Verif.Parts.Animate
