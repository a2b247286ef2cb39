import Verif.Covariance.Transform

/-!
# Property C24: the transformed covariance, block by block
-/

set_option linter.unusedSectionVars false

namespace Verif.Parts.Covariance

open Verif.Py

variable {K : Type}

/-- A sum over all parameters of a model of a term that is zero outside part `i`. -/
theorem sum_block [AddCommMonoid K] {ps : List (Part K)} {i : ℕ} {p : Part K} (hp : ps[i]? = some p) (f : ℕ → K)
    (h0 : ∀ (i' : ℕ) p' a, ps[i']? = some p' → a < p'.pars.length → i' ≠ i → f (off ps i' + a) = 0) :
    ∑ k ∈ Finset.range (total ps), f k = ∑ a ∈ Finset.range p.pars.length, f (off ps i + a) := by
  have hsub : (Finset.range p.pars.length).image (fun a => off ps i + a) ⊆ Finset.range (total ps) := by
    intro k hk
    obtain ⟨a, ha, rfl⟩ := Finset.mem_image.1 hk
    exact Finset.mem_range.2 (off_add_lt hp (Finset.mem_range.1 ha))
  rw [← Finset.sum_subset hsub]
  · rw [Finset.sum_image]
    intro a _ b _ h
    simpa using h
  · intro k hk hn
    obtain ⟨i', p', a, hp', ha, rfl⟩ := exists_split (Finset.mem_range.1 hk)
    apply h0 i' p' a hp' ha
    rintro rfl
    rw [hp] at hp'
    simp only [Option.some.injEq] at hp'
    subst hp'
    exact hn (Finset.mem_image.2 ⟨a, Finset.mem_range.2 ha, rfl⟩)

/-- **C24.** The transformed covariance of parameter `j` of part `i` with parameter `j'` of part `i'` is made
only of the old covariances between these two parts: the sum over the parameters `a` of part `i` and `b` of part `i'`
of `G_i[j, a] cov(b, a) G_i'[b, j']`, `G_i` being the gradient matrix of part `i` (the identity if it is not selected). -/
theorem c24_blocks [CommRing K] (D : Part K → Res (ℕ → ℕ → K)) (inF outF : Option String)
    {st : MC K} {M : Mat K} {ps : List (Part K)} (hM : st.cov = some M) (hps : st.model = some ps)
    (hmap : Mapped ps st) (hwf : WFParts ps) (hn : M.n = total ps) (w : Which) (sel : List ℕ)
    (hw : w.list ps.length = sel.map (fun (i : ℕ) => (i : ℤ))) (hnd : sel.Nodup)
    (hsel : ∀ k ∈ sel, ∃ p, ps[k]? = some p ∧ 0 < p.owner.npars) :
    ∃ (st' : MC K) (ps' : List (Part K)) (M' : Mat K), transform D inF outF st w = (.ok (), st') ∧ st'.model = some ps' ∧
      (∀ k, ps'[k]? = if k ∈ sel then ps[k]?.map (movedOf inF outF) else ps[k]?) ∧
      Mapped ps st' ∧ st'.cov = some M' ∧ M'.n = total ps ∧
      ∀ (i i' : ℕ) p p' j j', ps[i]? = some p → ps[i']? = some p' → j < p.pars.length →
        j' < p'.pars.length →
        st'.getcovariance (.pair i j) (.pair i' j') =
          .ok (∑ b ∈ Finset.range p'.pars.length, (∑ a ∈ Finset.range p.pars.length,
            (if i ∈ sel then gradOf D inF outF p j a else if j = a then 1 else 0) * M.e (off ps i' + b) (off ps i + a)) *
            (if i' ∈ sel then gradOf D inF outF p' b j' else if b = j' then 1 else 0)) := by
  obtain ⟨st', ps', G, h1, h2, h3, h4, h5, h6⟩ := c24_transform D inF outF hM hps hmap hwf hn w sel hw hnd hsel
  refine ⟨st', ps', _, h1, h2, h3, h4, h5, hn, ?_⟩
  intro i i' p p' j j' hp hp' hj hj'
  unfold MC.getcovariance
  rw [h5]
  simp only [MC.index, h4.pmap i p hp j hj, h4.pmap i' p' hp' j' hj', Mat.get]
  rw [if_pos (by rw [hn]; exact ⟨off_add_lt hp hj, off_add_lt hp' hj'⟩)]
  simp only [Except.ok.injEq]
  rw [hn, sum_block hp']
  · apply Finset.sum_congr rfl
    intro b hb
    have hb := Finset.mem_range.1 hb
    rw [h6 i' i' p' p' b j' hp' hp' hb hj']
    congr 1
    · rw [sum_block hp]
      · apply Finset.sum_congr rfl
        intro a ha
        rw [h6 i i p p j a hp hp hj (Finset.mem_range.1 ha)]
        unfold gradEntry
        rw [if_pos rfl]
      · intro k q a hq ha hne
        rw [h6 i k p q j a hp hq hj ha]
        unfold gradEntry
        rw [if_neg (Ne.symm hne), zero_mul]
    · unfold gradEntry
      rw [if_pos rfl]
  · intro k q b hq hb hne
    rw [h6 k i' q p' b j' hq hp' hb hj']
    unfold gradEntry
    rw [if_neg hne, mul_zero]

/-- Instance of `c24_blocks`: two parts, the second transformed. -/
example : ∃ st M, setcovariance (MC.empty : MC ℚ) [exPart 1 2, exPart 3 4] 4 4
        (fun a b => if a = b then 2 else 1) = (.ok (), st) ∧ st.cov = some M ∧ M.n = total [exPart 1 2, exPart 3 4] ∧
    st.model = some [exPart 1 2, exPart 3 4] ∧ Mapped [exPart 1 2, exPart 3 4] st ∧ WFParts [exPart 1 2, exPart 3 4] ∧
    (Which.parts [1]).list 2 = [1].map (fun (i : ℕ) => (i : ℤ)) ∧
    ∃ p, [exPart 1 2, exPart 3 4][1]? = some p ∧ 0 < p.owner.npars := by
  have hwf : WFParts [exPart 1 2, exPart 3 4] := by
    intro q hq
    simp only [List.mem_cons, List.not_mem_nil, or_false] at hq
    rcases hq with rfl | rfl <;> exact ⟨rfl, rfl⟩
  obtain ⟨st, M, h1, h2, h3, h4, h5, -⟩ := setcov_ok (MC.empty : MC ℚ) hwf (by simp) 4 (Or.inl rfl)
    (fun a b => if a = b then 2 else 1)
  exact ⟨st, M, h1, h2, h5, h3, h4, hwf, rfl, _, rfl, by decide⟩

end Verif.Parts.Covariance
