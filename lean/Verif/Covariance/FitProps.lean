import Verif.Covariance.FitModel

/-!
# Property C97: the covariance of a fit
-/

set_option linter.unusedSectionVars false

namespace Verif.Parts.Covariance

open Verif.Py

variable {K : Type} [Field K]

/-- The optimiser's matrix, if it returns one, is square with a row per free parameter. -/
def Squared (l : Lsq K) (n : ℕ) : Prop :=
  ∀ x ier C f, l.outcome = .done x ier (some C) f → C.length = n ∧ ∀ row ∈ C, row.length = n

/-- A change of format keeps the number of parameters. -/
def Sized (p : Part K) : Prop :=
  ∀ v i o q, p.owner.transform v i o = .ok q → q.length = v.length

/-- The covariance of parameter `j` of part `i` with `j'` of part `i'` in the parameters that were fitted:
`cov_x · Σ fvec² / (number of points - number of free parameters)`, and 0 if either is fixed. -/
def rawCov (qs : List (Part K)) (nr : ℕ) (covx : List (List K)) (fvec : List K) (i j i' j' : ℕ) : K :=
  if ((qs[i]?.map (fun p => p.free[j]?)).join = some true) ∧ ((qs[i']?.map (fun p => p.free[j']?)).join = some true) then
    entries covx (freeRank qs i j) (freeRank qs i' j') * (fvec.map (fun v => v ^ 2)).sum / ((nr : K) - (npars qs false : ℕ))
  else 0

theorem entries_map (C : List (List K)) (g : K → K) (n : ℕ) (hn : C.length = n) (hr : ∀ row ∈ C, row.length = n) {a b : ℕ}
    (ha : a < n) (hb : b < n) : entries (C.map (fun row => row.map g)) a b = g (entries C a b) := by
  subst hn
  have hl := hr C[a] (List.getElem_mem ha)
  unfold entries
  simp only [List.getD_eq_getElem?_getD, List.getElem?_map, List.getElem?_eq_getElem ha, Option.map_some, Option.getD_some]
  rw [List.getElem?_eq_getElem (show b < C[a].length by omega)]
  rfl

theorem freeRank_lt {qs : List (Part K)} {i j : ℕ} {p : Part K} (hp : qs[i]? = some p) (hj : p.free[j]? = some true) :
    freeRank qs i j < npars qs false := by
  have hjl : j < p.free.length := by
    by_contra hc
    rw [List.getElem?_eq_none (by omega)] at hj
    cases hj
  have h1 : (p.free.take j).count true < p.npars false := by
    have h2 : p.free = p.free.take j ++ p.free[j] :: p.free.drop (j + 1) := by
      rw [List.getElem_cons_drop, List.take_append_drop]
    have h3 : p.free[j] = true := by
      rw [List.getElem?_eq_getElem hjl] at hj
      simpa using hj
    have h4 : p.npars false = p.free.count true := by simp [Part.npars]
    rw [h4]
    conv_rhs => rw [h2, List.count_append, h3, List.count_cons_self]
    omega
  have hil : i < qs.length := by
    by_contra hc
    rw [List.getElem?_eq_none (by omega)] at hp
    cases hp
  have hsplit : qs = qs.take i ++ p :: qs.drop (i + 1) := by
    have : qs[i] = p := by
      rw [List.getElem?_eq_getElem hil] at hp
      simpa using hp
    rw [← this, List.getElem_cons_drop, List.take_append_drop]
  unfold freeRank
  rw [hp]
  simp only [Option.map_some, Option.getD_some]
  have : npars qs false = npars (qs.take i) false + (p.npars false + npars (qs.drop (i + 1)) false) := by
    conv_lhs => rw [hsplit]
    simp [npars]
  omega

/-- The fitted parts have the functions and flags of the old ones, and as many parameters. -/
theorem fitted_frame {ps ms qs : List (Part K)} (hwf : WFParts ps) (hsz : ∀ p ∈ ps, Sized p)
    (h1 : List.Forall₂ SameButFree ps ms) (h2 : List.Forall₂ Normalised ms qs) :
    WFParts qs ∧ (∀ q ∈ qs, Sized q) ∧ npars qs false = npars ps false ∧ qs.length = ps.length ∧
      ∀ (i : ℕ) p q, ps[i]? = some p → qs[i]? = some q → q.owner = p.owner ∧ q.free = p.free := by
  induction h1 generalizing qs with
  | nil =>
    cases h2
    exact ⟨by simp [WFParts], by simp, rfl, rfl, by simp⟩
  | @cons p m ps ms a b ih =>
    cases h2 with
    | @cons _ q _ qs c d =>
      obtain ⟨w, e1, e2⟩ := c
      have hp := hwf p List.mem_cons_self
      have hq1 : q.owner = p.owner := by rw [e2]; exact a.owner
      have hq2 : q.free = p.free := by rw [e2]; exact a.free
      have hq3 : q.pars.length = p.pars.length := by
        rw [e2]
        have := hsz p List.mem_cons_self m.pars (some "internal") (some "internal") w (by rw [← a.owner]; exact e1)
        rw [← a.length]
        exact this
      obtain ⟨r1, r2, r3, r4, r5⟩ := ih (fun x hx => hwf x (List.mem_cons_of_mem _ hx))
        (fun x hx => hsz x (List.mem_cons_of_mem _ hx)) d
      refine ⟨?_, ?_, ?_, by simp [r4], ?_⟩
      · intro x hx
        rcases List.mem_cons.1 hx with rfl | hx
        · rw [hq1, hq2, hq3]; exact hp
        · exact r1 x hx
      · intro x hx
        rcases List.mem_cons.1 hx with rfl | hx
        · unfold Sized; rw [hq1]; exact hsz p List.mem_cons_self
        · exact r2 x hx
      · unfold npars at r3 ⊢
        simp only [List.map_cons, List.sum_cons, r3]
        simp [Part.npars, hq2]
      · intro i x y hx hy
        match i with
        | 0 =>
          simp only [List.getElem?_cons_zero, Option.some.injEq] at hx hy
          subst hx hy
          exact ⟨hq1, hq2⟩
        | i + 1 => exact r5 i x y (by simpa using hx) (by simpa using hy)

theorem wf_valid {ps : List (Part K)} (h : WFParts ps) : ∀ p ∈ ps, Valid p := fun p hp => ⟨(h p hp).1, (h p hp).2⟩

theorem npars_cons (p : Part K) (ps : List (Part K)) (b : Bool) : npars (p :: ps) b = p.npars b + npars ps b := by
  simp [npars]

theorem part_le {p : Part K} (h : p.pars.length = p.owner.npars ∧ p.free.length = p.owner.npars) :
    p.npars false ≤ p.npars true ∧ p.npars true = p.pars.length := by
  have h1 := List.count_le_length (a := true) (l := p.free)
  have h2 := h.1
  have h3 := h.2
  simp only [Part.npars, if_true, Bool.false_eq_true, if_false]
  omega

theorem npars_le {ps : List (Part K)} (hwf : WFParts ps) : npars ps false ≤ npars ps true := by
  induction ps with
  | nil => simp [npars]
  | cons p ps ih =>
    have := ih (fun q hq => hwf q (List.mem_cons_of_mem _ hq))
    have := (part_le (hwf p List.mem_cons_self)).1
    rw [npars_cons, npars_cons]
    omega

/-- If as many parameters are free as there are, all of them are. -/
theorem all_free {ps : List (Part K)} (hwf : WFParts ps) (h : npars ps false = npars ps true) :
    ∀ (k : ℕ) q c, ps[k]? = some q → c < q.pars.length → q.free[c]? = some true ∧ freeRank ps k c = off ps k + c := by
  have hall : ∀ p ∈ ps, p.npars false = p.npars true := by
    induction ps with
    | nil => simp
    | cons p ps ih =>
      have hw : WFParts ps := fun q hq => hwf q (List.mem_cons_of_mem _ hq)
      have a1 := (part_le (hwf p List.mem_cons_self)).1
      have a2 := npars_le hw
      rw [npars_cons, npars_cons] at h
      intro q hq
      rcases List.mem_cons.1 hq with rfl | hq
      · omega
      · exact ih hw (by omega) q hq
  have htrue : ∀ p ∈ ps, ∀ b ∈ p.free, b = true := by
    intro p hp b hb
    have h1 := hall p hp
    have h2 := (hwf p hp).2
    have h3 : p.free.count true = p.free.length := by
      simp only [Part.npars, if_true, Bool.false_eq_true, if_false] at h1
      omega
    exact (List.count_eq_length.1 h3 b hb).symm
  intro k q c hq hc
  have hm := List.mem_of_getElem? hq
  have hcl : c < q.free.length := by have := hwf q hm; omega
  refine ⟨?_, ?_⟩
  · rw [List.getElem?_eq_getElem hcl, htrue q hm _ (List.getElem_mem hcl)]
  · unfold freeRank off
    rw [hq]
    simp only [Option.map_some, Option.getD_some]
    have h1 : (q.free.take c).count true = c := by
      have : (q.free.take c).count true = (q.free.take c).length :=
        List.count_eq_length.2 (fun b hb => (htrue q hm b (List.mem_of_mem_take hb)).symm)
      rw [this, List.length_take]
      omega
    rw [h1]
    congr 1
    unfold npars
    congr 1
    apply List.map_congr_left
    intro p hp
    have hp' := List.mem_of_mem_take hp
    rw [hall p hp', (part_le (hwf p hp')).2]

/-- A fit with a covariance object is the fit of `Verif.Parts.fit`: it raises and changes the parts in the same way. -/
theorem covFit_proj (D : Part K → Res (ℕ → ℕ → K)) (outF : Option String) (F : Flt K) (nr : ℕ) (l1 l2 : Lsq K) (st : MC K)
    {ps : List (Part K)} (hwf : WFParts ps) (hint : ∀ p ∈ ps, p.isInt = false)
    (hpos : ∀ p ∈ ps, 0 < p.owner.npars) (hsz : ∀ p ∈ ps, Sized p) (h1 : Squared l1 (npars ps false))
    (h2 : Squared l2 (npars ps false)) :
    (covFit D outF F nr l1 l2 st ps).1 = (Parts.fit F ps nr true l1 l2).1.map (fun _ => ()) ∧
    (covFit D outF F nr l1 l2 st ps).2.1 = (Parts.fit F ps nr true l1 l2).2 ∧
    ((∀ C, (Parts.fit F ps nr true l1 l2).1 ≠ .ok (some C)) → (covFit D outF F nr l1 l2 st ps).2.2 = st) ∧
    (∀ C qs, Parts.fit F ps nr true l1 l2 = (.ok (some C), qs) → 0 < npars ps false ∧
      ∃ x ier covx fvec, (l1.outcome = .done x ier (some covx) fvec ∨ l2.outcome = .done x ier (some covx) fvec) ∧
      (∀ (i : ℕ) p q, ps[i]? = some p → qs[i]? = some q → q.owner = p.owner ∧ q.free = p.free) ∧ qs.length = ps.length ∧
      ∃ M, (covFit D outF F nr l1 l2 st ps).2.2.cov = some M ∧ M.n = total qs ∧
      (covFit D outF F nr l1 l2 st ps).2.2.model = some (qs.map (movedOf (some "internal") outF)) ∧
      Mapped qs (covFit D outF F nr l1 l2 st ps).2.2 ∧ WFParts qs ∧ (∀ q ∈ qs, Sized q) ∧
      ∀ (i i' : ℕ) p p' j j', qs[i]? = some p → qs[i']? = some p' → j < p.pars.length → j' < p'.pars.length →
        (covFit D outF F nr l1 l2 st ps).2.2.getcovariance (.pair i j) (.pair i' j') =
          .ok (∑ b ∈ Finset.range p'.pars.length, (∑ a ∈ Finset.range p.pars.length,
            gradOf D (some "internal") outF p j a * rawCov qs nr covx fvec i' b i a) *
            gradOf D (some "internal") outF p' b j')) := by
  have hv := wf_valid hwf
  generalize hf : Parts.fit F ps nr true l1 l2 = f
  obtain ⟨res, qs⟩ := f
  unfold covFit
  rw [hf]
  cases res with
  | error e => exact ⟨rfl, rfl, fun _ => rfl, fun C qs' h => by simp at h⟩
  | ok oc =>
  cases oc with
  | none => exact ⟨rfl, rfl, fun _ => rfl, fun C qs' h => by simp at h⟩
  | some C =>
    simp only
    have hne : ps ≠ [] := by
      rintro rfl
      rw [(c18_fit_refusals F [] hv nr true l1 l2).1 rfl] at hf
      simp at hf
    have hfree : 0 < npars ps false := by
      by_contra hc
      obtain ⟨-, r2, r3⟩ := c18_fit_refusals F ps hv nr true l1 l2
      by_cases hnr : 0 < nr
      · rw [r3 hne (by omega) hnr] at hf
        simp at hf
      · rw [r2 hne (by omega)] at hf
        simp at hf
    obtain ⟨hnr, x, ier, covx, fvec, ms, ho, -, -, s1, -, s2, -, s3⟩ := c18_fit_success F ps hv hint nr true l1 l2 hf hfree
    obtain ⟨m, rfl, hC⟩ := s3 rfl
    simp only [Option.some.injEq] at hC
    obtain ⟨w1, w2, w3, w4, w5⟩ := fitted_frame hwf hsz s1 s2
    have hsh : m.length = npars ps false ∧ ∀ row ∈ m, row.length = npars ps false := by
      rcases ho with ho | ho
      · exact h1 _ _ _ _ ho
      · exact h2 _ _ _ _ ho
    have hlen : C.length = npars qs false := by rw [hC, List.length_map, w3]; exact hsh.1
    have hcols : (C.headD []).length = npars qs false := by
      rw [hC]
      cases m with
      | nil => simp only [List.length_nil] at hsh; omega
      | cons row m => simp [hsh.2 row List.mem_cons_self, w3]
    have hneq : qs ≠ [] := by
      rintro rfl
      rw [List.length_nil] at w4
      exact hne (List.length_eq_zero_iff.1 w4.symm)
    rw [hlen, hcols]
    obtain ⟨st', M, e1, e2, e3, e4, e5, e6⟩ := setcov_ok st w1 hneq (npars qs false) (Or.inr rfl) (entries C)
    rw [e1]
    simp only
    have hposq : ∀ q ∈ qs, 0 < q.owner.npars := by
      intro q hq
      obtain ⟨k, hk, rfl⟩ := List.getElem_of_mem hq
      rw [(w5 k ps[k] qs[k] (List.getElem?_eq_getElem (by omega)) (List.getElem?_eq_getElem hk)).1]
      exact hpos _ (List.getElem_mem _)
    obtain ⟨st'', ps', M', f1, f2, f3, f4, f5, f6, f7⟩ := c24_blocks D (some "internal") outF e2 e3 e4 w1 e5 .all
      (List.range qs.length) rfl List.nodup_range (fun k hk => by
        have hk' := List.mem_range.1 hk
        exact ⟨qs[k], List.getElem?_eq_getElem hk', hposq _ (List.getElem_mem hk')⟩)
    have hmv : ps' = qs.map (movedOf (some "internal") outF) := by
      apply List.ext_getElem?
      intro k
      rw [f3 k, List.getElem?_map]
      by_cases hk : k < qs.length
      · rw [if_pos (List.mem_range.2 hk)]
      · rw [if_neg (fun hc => hk (List.mem_range.1 hc)), List.getElem?_eq_none (by omega)]
        rfl
    rw [f1]
    refine ⟨rfl, rfl, fun h => absurd rfl (h C), ?_⟩
    intro C' qs' hCq
    simp only [Prod.mk.injEq, Except.ok.injEq, Option.some.injEq] at hCq
    obtain ⟨-, rfl⟩ := hCq
    refine ⟨hfree, x, ier, m, fvec, ho, w5, w4, M', f5, f6, by rw [f2, hmv], f4, w1, w2, ?_⟩
    intro i i' p p' j j' hp hp' hj hj'
    have hi : i ∈ List.range qs.length := List.mem_range.2 (by
      by_contra hc
      rw [List.getElem?_eq_none (by omega)] at hp
      cases hp)
    have hi' : i' ∈ List.range qs.length := List.mem_range.2 (by
      by_contra hc
      rw [List.getElem?_eq_none (by omega)] at hp'
      cases hp')
    simp only
    rw [f7 i i' p p' j j' hp hp' hj hj']
    simp only [if_pos hi, if_pos hi', Except.ok.injEq]
    apply Finset.sum_congr rfl
    intro b hb
    congr 1
    apply Finset.sum_congr rfl
    intro a ha
    congr 1
    have hb := Finset.mem_range.1 hb
    have ha := Finset.mem_range.1 ha
    rw [e6 i' i p' p b a hp' hp hb ha]
    unfold rawCov
    rw [hp, hp']
    simp only [Option.map_some, Option.join_some]
    have hval : ∀ (hc : p'.free[b]? = some true ∧ p.free[a]? = some true),
        entries C (freeRank qs i' b) (freeRank qs i a) =
          entries m (freeRank qs i' b) (freeRank qs i a) * (fvec.map (fun v => v ^ 2)).sum / ((nr : K) - (npars qs false : ℕ)) := by
      intro hc
      have l1 := freeRank_lt hp' hc.1
      have l2 := freeRank_lt hp hc.2
      rw [hC, w3]
      exact entries_map m (fun v => v * (fvec.map (fun v => v ^ 2)).sum / ((nr : K) - (npars ps false : ℕ))) (npars ps false)
        hsh.1 hsh.2 (by omega) (by omega)
    by_cases hall : npars qs false = npars qs true
    · rw [if_pos hall]
      have hfl : ∀ (k : ℕ) q c, qs[k]? = some q → c < q.pars.length → q.free[c]? = some true ∧ freeRank qs k c = off qs k + c := by
        exact all_free w1 hall
      obtain ⟨a1, a2⟩ := hfl i' p' b hp' hb
      obtain ⟨b1, b2⟩ := hfl i p a hp ha
      rw [if_pos ⟨a1, b1⟩, ← hval ⟨a1, b1⟩, a2, b2]
    · rw [if_neg hall]
      by_cases hc : p'.free[b]? = some true ∧ p.free[a]? = some true
      · rw [if_pos hc, if_pos hc, hval hc]
      · rw [if_neg hc, if_neg hc]

end Verif.Parts.Covariance
