import Verif.Covariance.Props
import Mathlib.Algebra.BigOperators.Ring.Finset
import Mathlib.Algebra.BigOperators.Fin
import Mathlib.Algebra.Order.Star.Real

/-!
# Property C24: transforming a covariance matrix together with the model
-/

set_option linter.unusedSectionVars false

namespace Verif.Parts.Covariance

open Verif.Py

variable {K : Type}

/-- The gradient applied to one part: that of its function if both the gradient and the parameters can
be transformed, else the identity matrix. -/
def gradOf [Zero K] [One K] (D : Part K → Res (ℕ → ℕ → K)) (inF outF : Option String)
    (p : Part K) (a b : ℕ) : K :=
  match D p, p.owner.transform p.pars inF outF with
  | .ok g, .ok _ => g a b
  | _, _ => if a = b then 1 else 0

/-- The part after its parameters have been transformed, if they can be. -/
def movedOf (inF outF : Option String) (p : Part K) : Part K :=
  match p.owner.transform p.pars inF outF with
  | .ok q => { p with pars := q }
  | .error _ => p

theorem subTransform_eq [Zero K] [One K] (D : Part K → Res (ℕ → ℕ → K)) (inF outF : Option String)
    (p : Part K) : subTransform D inF outF p = (gradOf D inF outF p, movedOf inF outF p) := by
  unfold subTransform movedOf
  have : gradOf D inF outF p = match D p, p.owner.transform p.pars inF outF with
      | .ok g, .ok _ => g
      | _, _ => delta := by
    funext a b
    unfold gradOf delta
    cases D p <;> cases p.owner.transform p.pars inF outF <;> rfl
  rw [this]
  cases D p <;> cases p.owner.transform p.pars inF outF <;> rfl

/-- The loop over the parts: each selected part is transformed, and each block of the selected parts
is the gradient of that part. -/
theorem gradLoop_spec [Zero K] [One K] (D : Part K → Res (ℕ → ℕ → K)) (inF outF : Option String)
    (mmap : Dict ℕ (ℕ × ℕ)) (S N : ℕ → ℕ) : ∀ (l : List ℕ) (g : ℕ → ℕ → K) (ps : List (Part K)),
    l.Nodup → (∀ k ∈ l, k < ps.length) →
    (∀ k ∈ l, Dict.get? mmap k = some (S k, N k) ∧ 0 < N k) →
    (∀ k ∈ l, ∀ k' ∈ l, k ≠ k' → S k + N k ≤ S k' ∨ S k' + N k' ≤ S k) →
    ∃ g' ps', gradLoop D inF outF mmap (l.map (fun (i : ℕ) => (i : ℤ))) g ps = (.ok g', ps') ∧
      ps'.length = ps.length ∧
      (∀ k, ps'[k]? = if k ∈ l then ps[k]?.map (movedOf inF outF) else ps[k]?) ∧
      (∀ k ∈ l, ∀ p, ps[k]? = some p → ∀ a b, a < N k → b < N k →
        g' (S k + a) (S k + b) = gradOf D inF outF p a b) ∧
      (∀ a b, (∀ k ∈ l, ¬ ((S k ≤ a ∧ a < S k + N k) ∧ (S k ≤ b ∧ b < S k + N k))) →
        g' a b = g a b) := by
  intro l
  induction l with
  | nil =>
    intro g ps _ _ _ _
    exact ⟨g, ps, rfl, rfl, by simp, by simp, by simp⟩
  | cons i l ih =>
    intro g ps hnd hlt hmm hdis
    obtain ⟨hi, hnd'⟩ := List.nodup_cons.1 hnd
    obtain ⟨hm, hpos⟩ := hmm i List.mem_cons_self
    have hil := hlt i List.mem_cons_self
    obtain ⟨g', ps', e1, e2, e3, e4, e5⟩ := ih (setBlock g (S i) (N i) (gradOf D inF outF ps[i]))
      (ps.set i (movedOf inF outF ps[i])) hnd'
      (fun k hk => by rw [List.length_set]; exact hlt k (List.mem_cons_of_mem _ hk))
      (fun k hk => hmm k (List.mem_cons_of_mem _ hk))
      (fun k hk k' hk' => hdis k (List.mem_cons_of_mem _ hk) k' (List.mem_cons_of_mem _ hk'))
    refine ⟨g', ps', ?_, by rw [e2, List.length_set], ?_, ?_, ?_⟩
    · rw [List.map_cons]
      unfold gradLoop
      rw [if_neg (by omega)]
      simp only [Int.toNat_natCast, hm]
      rw [if_neg (by omega)]
      rw [List.getElem?_eq_getElem hil]
      simp only [subTransform_eq]
      exact e1
    · intro k
      rw [e3]
      by_cases hk : k = i
      · subst hk
        rw [if_neg hi, if_pos List.mem_cons_self, List.getElem?_set_self hil,
          List.getElem?_eq_getElem hil]
        rfl
      · rw [List.getElem?_set_ne (Ne.symm hk)]
        simp [hk]
    · intro k hk p hp a b ha hb
      rcases List.mem_cons.1 hk with rfl | hk'
      · rw [e5]
        · unfold setBlock
          rw [if_pos ⟨⟨by omega, by omega⟩, ⟨by omega, by omega⟩⟩]
          have : ps[k] = p := by
            rw [List.getElem?_eq_getElem hil] at hp
            simpa using hp
          rw [this, Nat.add_sub_cancel_left, Nat.add_sub_cancel_left]
        · intro k' hk' hcon
          have hne : k' ≠ k := by rintro rfl; exact hi hk'
          have := hdis k' (List.mem_cons_of_mem _ hk') k List.mem_cons_self hne
          omega
      · have hne : i ≠ k := by rintro rfl; exact hi hk'
        exact e4 k hk' p (by rw [List.getElem?_set_ne hne]; exact hp) a b ha hb
    · intro a b hout
      rw [e5 a b (fun k hk => hout k (List.mem_cons_of_mem _ hk))]
      unfold setBlock
      rw [if_neg (hout i List.mem_cons_self)]

/-- The gradient of the whole change of variables, block by block: entry for parameter `j` of part `i`
and parameter `j'` of part `i'`. -/
def gradEntry [Zero K] [One K] (D : Part K → Res (ℕ → ℕ → K)) (inF outF : Option String)
    (sel : List ℕ) (i : ℕ) (p : Part K) (j i' j' : ℕ) : K :=
  if i = i' then (if i ∈ sel then gradOf D inF outF p j j' else if j = j' then 1 else 0) else 0

/-- **C24.** `transform(in, out, parts=sel)` (any selection of different existing parts that each have a
parameter; by default all, or all but the last) succeeds.  Every selected part has its parameters
transformed, no other part changes, and the covariance becomes `G Vᵀ G`, where the gradient matrix `G`
is block diagonal: the gradient of its function for a selected part, the identity for the others and
for parts whose function refuses one of the two transformations. -/
theorem c24_transform [CommRing K] (D : Part K → Res (ℕ → ℕ → K)) (inF outF : Option String)
    {st : MC K} {M : Mat K} {ps : List (Part K)} (hM : st.cov = some M) (hps : st.model = some ps)
    (hmap : Mapped ps st) (hwf : WFParts ps) (hn : M.n = total ps) (w : Which) (sel : List ℕ)
    (hw : w.list ps.length = sel.map (fun (i : ℕ) => (i : ℤ))) (hnd : sel.Nodup)
    (hsel : ∀ k ∈ sel, ∃ p, ps[k]? = some p ∧ 0 < p.owner.npars) :
    ∃ (st' : MC K) (ps' : List (Part K)) (G : ℕ → ℕ → K), transform D inF outF st w = (.ok (), st') ∧ st'.model = some ps' ∧
      (∀ k, ps'[k]? = if k ∈ sel then ps[k]?.map (movedOf inF outF) else ps[k]?) ∧
      Mapped ps st' ∧
      st'.cov = some ⟨M.n, fun a b => ∑ l ∈ Finset.range M.n,
        (∑ k ∈ Finset.range M.n, G a k * M.e l k) * G l b⟩ ∧
      ∀ (i i' : ℕ) p p' j j', ps[i]? = some p → ps[i']? = some p' → j < p.pars.length →
        j' < p'.pars.length →
        G (off ps i + j) (off ps i' + j') = gradEntry D inF outF sel i p j i' j' := by
  have hpars : ∀ (k : ℕ) p, ps[k]? = some p → p.npars true = p.pars.length := by
    intro k p hp
    have := (hwf p (List.mem_of_getElem? hp)).1
    simp [Part.npars, this]
  let N : ℕ → ℕ := fun k => (ps[k]?.map (fun p => p.pars.length)).getD 0
  have hN : ∀ (k : ℕ) p, ps[k]? = some p → N k = p.pars.length := by
    intro k p hp; simp [N, hp]
  obtain ⟨g', ps', e1, -, e3, e4, e5⟩ := gradLoop_spec D inF outF st.mmap (off ps) N sel delta ps hnd
    (fun k hk => by
      obtain ⟨p, hp, -⟩ := hsel k hk
      by_contra hc
      rw [List.getElem?_eq_none (by omega)] at hp
      simp at hp)
    (fun k hk => by
      obtain ⟨p, hp, h0⟩ := hsel k hk
      have := (hwf p (List.mem_of_getElem? hp)).1
      rw [hmap.mmap k p hp, hN k p hp, hpars k p hp]
      exact ⟨rfl, by omega⟩)
    (fun k hk k' hk' hne => by
      obtain ⟨p, hp, -⟩ := hsel k hk
      obtain ⟨p', hp', -⟩ := hsel k' hk'
      rw [hN k p hp, hN k' p' hp']
      rcases Nat.lt_or_gt_of_ne hne with h | h
      · exact Or.inl (off_lt hp h)
      · exact Or.inr (off_lt hp' h))
  refine ⟨{ st with model := some ps', cov := some ⟨M.n, mul M.n (mul M.n g' (fun a b => M.e b a)) g'⟩ },
    ps', g', ?_, rfl, e3, ?_, rfl, ?_⟩
  · unfold transform
    rw [hM, hps]
    simp only
    rw [hw, e1]
  · exact ⟨hmap.pmap, hmap.ipmap, hmap.mmap⟩
  · intro i i' p p' j j' hp hp' hj hj'
    unfold gradEntry
    by_cases hii : i = i'
    · subst hii
      rw [hp] at hp'
      simp only [Option.some.injEq] at hp'
      subst hp'
      rw [if_pos rfl]
      by_cases hs : i ∈ sel
      · rw [if_pos hs]
        exact e4 i hs p hp j j' (by rw [hN i p hp]; exact hj) (by rw [hN i p hp]; exact hj')
      · rw [if_neg hs, e5]
        · unfold delta
          simp
        · intro k hk hcon
          obtain ⟨q, hq, -⟩ := hsel k hk
          rw [hN k q hq] at hcon
          have hne : k ≠ i := by rintro rfl; exact hs hk
          rcases Nat.lt_or_gt_of_ne hne with h | h
          · have := off_lt hq h; omega
          · have := off_lt hp h; omega
    · rw [if_neg hii, e5]
      · unfold delta
        rw [if_neg]
        rcases Nat.lt_or_gt_of_ne hii with h | h
        · have := off_lt hp h; omega
        · have := off_lt hp' h; omega
      · intro k hk hcon
        obtain ⟨q, hq, -⟩ := hsel k hk
        rw [hN k q hq] at hcon
        have key : ∀ (m : ℕ) r x, ps[m]? = some r → x < r.pars.length → off ps k ≤ off ps m + x →
            off ps m + x < off ps k + q.pars.length → k = m := by
          intro m r x hr hx h1 h2
          by_contra hne
          rcases Nat.lt_or_gt_of_ne hne with h | h
          · have := off_lt hq h; omega
          · have := off_lt hr h; omega
        have h1 := key i p j hp hj hcon.1.1 hcon.1.2
        have h2 := key i' p' j' hp' hj' hcon.2.1 hcon.2.2
        omega

/-- The scale factor of one parameter: the diagonal entry of its gradient. -/
def factor [Zero K] [One K] (D : Part K → Res (ℕ → ℕ → K)) (inF outF : Option String)
    (sel : List ℕ) (i : ℕ) (p : Part K) (j : ℕ) : K :=
  if i ∈ sel then gradOf D inF outF p j j else 1

/-- **C24.** For functions whose change of parametrisation is one parameter at a time (diagonal gradient;
all of the package's), and a symmetric covariance matrix: after `transform`, the covariance of any two
parameters is the old one multiplied by the two derivatives of the new parameters with respect to the
old ones. -/
theorem c24_diagonal [CommRing K] (D : Part K → Res (ℕ → ℕ → K)) (inF outF : Option String)
    {st : MC K} {M : Mat K} {ps : List (Part K)} (hM : st.cov = some M) (hps : st.model = some ps)
    (hmap : Mapped ps st) (hwf : WFParts ps) (hn : M.n = total ps) (w : Which) (sel : List ℕ)
    (hw : w.list ps.length = sel.map (fun (i : ℕ) => (i : ℤ))) (hnd : sel.Nodup)
    (hsel : ∀ k ∈ sel, ∃ p, ps[k]? = some p ∧ 0 < p.owner.npars)
    (hsym : ∀ a b, M.e a b = M.e b a)
    (hdiag : ∀ k ∈ sel, ∀ p, ps[k]? = some p → ∀ a b, a ≠ b → gradOf D inF outF p a b = 0) :
    ∃ st', transform D inF outF st w = (.ok (), st') ∧
      ∀ (i i' : ℕ) p p' j j' c, ps[i]? = some p → ps[i']? = some p' → j < p.pars.length →
        j' < p'.pars.length → st.getcovariance (.pair i j) (.pair i' j') = .ok c →
        st'.getcovariance (.pair i j) (.pair i' j') =
          .ok (factor D inF outF sel i p j * c * factor D inF outF sel i' p' j') := by
  obtain ⟨st', ps', G, h1, -, -, h4, h5, h6⟩ := c24_transform D inF outF hM hps hmap hwf hn w sel hw hnd hsel
  refine ⟨st', h1, ?_⟩
  have hG : ∀ (i : ℕ) p j a, ps[i]? = some p → j < p.pars.length → a < total ps →
      G (off ps i + j) a = (if off ps i + j = a then factor D inF outF sel i p j else 0) ∧
      G a (off ps i + j) = (if a = off ps i + j then factor D inF outF sel i p j else 0) := by
    intro i p j a hp hj ha
    obtain ⟨k, q, m, hq, hm, rfl⟩ := exists_split ha
    rw [h6 i k p q j m hp hq hj hm, h6 k i q p m j hq hp hm hj]
    unfold gradEntry
    by_cases hik : i = k
    · subst hik
      rw [hp] at hq
      simp only [Option.some.injEq] at hq
      subst hq
      rw [if_pos rfl]
      unfold factor
      by_cases hjm : j = m
      · subst hjm; simp
      · by_cases hs : i ∈ sel
        · have := hdiag i hs p hp j m hjm
          have := hdiag i hs p hp m j (Ne.symm hjm)
          simp_all [Ne.symm hjm]
        · simp [hjm, hs, Ne.symm hjm]
    · have hne : off ps i + j ≠ off ps k + m := by
        rcases Nat.lt_or_gt_of_ne hik with h | h
        · have := off_lt hp h; omega
        · have := off_lt hq h; omega
      rw [if_neg hik, if_neg hne, if_neg (Ne.symm hik), if_neg (Ne.symm hne)]
      exact ⟨rfl, rfl⟩
  intro i i' p p' j j' c hp hp' hj hj' hc
  have hx := off_add_lt hp hj
  have hy := off_add_lt hp' hj'
  unfold MC.getcovariance at hc ⊢
  rw [hM] at hc
  rw [h5]
  simp only [MC.index, hmap.pmap i p hp j hj, hmap.pmap i' p' hp' j' hj', h4.pmap i p hp j hj,
    h4.pmap i' p' hp' j' hj', Mat.get, hn, hx, hy, and_self, if_true, Except.ok.injEq] at hc ⊢
  subst hc
  rw [Finset.sum_eq_single (off ps i' + j')]
  · rw [Finset.sum_eq_single (off ps i + j)]
    · rw [(hG i p j _ hp hj hx).1, (hG i' p' j' _ hp' hj' hy).2, if_pos rfl, if_pos rfl,
        hsym (off ps i' + j')]
    · intro b hb hne
      rw [(hG i p j b hp hj (by simpa using hb)).1, if_neg (Ne.symm hne), zero_mul]
    · intro h; exact absurd (Finset.mem_range.2 hx) h
  · intro b hb hne
    rw [(hG i' p' j' b hp' hj' (by simpa using hb)).2, if_neg hne, mul_zero]
  · intro h; exact absurd (Finset.mem_range.2 hy) h

/-- **C24.** If moreover the gradients are symmetric (e.g. diagonal) and the covariance matrix is positive
semidefinite, the new covariance matrix is `G V Gᵀ`, again positive semidefinite: variances do not
become negative and correlations stay within `[-1, 1]` (`c23_correlation`). -/
theorem c24_positive (D : Part ℝ → Res (ℕ → ℕ → ℝ)) (inF outF : Option String)
    {st : MC ℝ} {M : Mat ℝ} {ps : List (Part ℝ)} (hM : st.cov = some M) (hps : st.model = some ps)
    (hmap : Mapped ps st) (hwf : WFParts ps) (hn : M.n = total ps) (w : Which) (sel : List ℕ)
    (hw : w.list ps.length = sel.map (fun (i : ℕ) => (i : ℤ))) (hnd : sel.Nodup)
    (hsel : ∀ k ∈ sel, ∃ p, ps[k]? = some p ∧ 0 < p.owner.npars)
    (hsym : ∀ k ∈ sel, ∀ p, ps[k]? = some p → ∀ a b, gradOf D inF outF p a b = gradOf D inF outF p b a)
    (hpsd : M.toMatrix.PosSemidef) :
    ∃ (st' : MC ℝ) (M' : Mat ℝ), transform D inF outF st w = (.ok (), st') ∧ st'.cov = some M' ∧
      M'.n = M.n ∧ M'.toMatrix.PosSemidef := by
  obtain ⟨st', ps', G, h1, -, -, h4, h5, h6⟩ := c24_transform D inF outF hM hps hmap hwf hn w sel hw hnd hsel
  refine ⟨st', _, h1, h5, rfl, ?_⟩
  have hG : ∀ a b, a < M.n → b < M.n → G a b = G b a := by
    intro a b ha hb
    rw [hn] at ha hb
    obtain ⟨i, p, j, hp, hj, rfl⟩ := exists_split ha
    obtain ⟨i', p', j', hp', hj', rfl⟩ := exists_split hb
    rw [h6 i i' p p' j j' hp hp' hj hj', h6 i' i p' p j' j hp' hp hj' hj]
    unfold gradEntry
    by_cases hii : i = i'
    · subst hii
      rw [hp] at hp'
      simp only [Option.some.injEq] at hp'
      subst hp'
      by_cases hs : i ∈ sel
      · simp only [if_true, if_pos hs]; exact hsym i hs p hp j j'
      · simp only [if_true, if_neg hs, eq_comm]
    · rw [if_neg hii, if_neg (Ne.symm hii)]
  have hV : ∀ a b, a < M.n → b < M.n → M.e a b = M.e b a := by
    intro a b ha hb
    exact (psd_minor hpsd ⟨a, ha⟩ ⟨b, hb⟩).2.2
  have e := hpsd.mul_mul_conjTranspose_same (fun (a b : Fin M.n) => G a b : Matrix (Fin M.n) (Fin M.n) ℝ)
  convert e using 1
  ext a b
  simp only [Mat.toMatrix, Matrix.mul_apply, Matrix.conjTranspose_apply, star_trivial]
  rw [← Fin.sum_univ_eq_sum_range (fun l => (∑ k ∈ Finset.range M.n, G a k * M.e l k) * G l b)]
  apply Finset.sum_congr rfl
  intro l _
  rw [← Fin.sum_univ_eq_sum_range (fun k => G a k * M.e l k), hG l b l.2 b.2]
  congr 1
  apply Finset.sum_congr rfl
  intro k _
  rw [hV l k l.2 k.2]
  rfl

/-- A two-parameter part whose parameters are swapped or doubled; `double` format. -/
def exOwner : Owner ℚ :=
  { lineOwner with
    npars := 2
    transform := fun v i o => if i = o then .ok v else .ok (v.map (2 * ·)) }

def exPart (a b : ℚ) : Part ℚ := ⟨exOwner, [a, b], [true, true], true, false, false⟩

/-- Instance: two parts, of which the last one only is transformed (an explicit index; `"baseline"`
cannot be used, see `c24_baseline_selector`), its parameters being doubled. -/
example :
    ∃ st, setcovariance (MC.empty : MC ℚ) [exPart 1 2, exPart 3 4] 4 4
        (fun a b => if a = b then 2 else 1) = (.ok (), st) ∧
      ∃ st', transform (fun _ => .ok (fun a b => if a = b then 2 else 0)) (some "internal") (some "double")
        st (.parts [1]) = (.ok (), st') ∧
        st'.getcovariance (.pair 1 0) (.pair 1 0) = .ok 8 ∧
        st'.getcovariance (.pair 0 0) (.pair 1 0) = .ok 2 ∧
        st'.getcovariance (.pair 0 0) (.pair 0 1) = .ok 1 ∧
        st'.getvalue (.pair 1 0) = .ok 6 ∧ st'.getvalue (.pair 0 0) = .ok 1 := by
  refine ⟨_, rfl, _, rfl, ?_, ?_, ?_, ?_, ?_⟩ <;> decide +kernel

/-- **C24, finding.** `transform(..., parts="baseline")`, which the documentation offers, always raises
KeyError (the map of parts has no key -1) and changes nothing. -/
theorem c24_baseline_selector [CommRing K] (D : Part K → Res (ℕ → ℕ → K)) (inF outF : Option String)
    {st : MC K} {M : Mat K} {ps : List (Part K)} (hM : st.cov = some M) (hps : st.model = some ps) :
    transform D inF outF st .baseline = (.error .key, st) := by
  unfold transform
  rw [hM, hps]
  simp only [Which.list, gradLoop]
  rw [if_pos (by omega)]
  simp only
  rw [← hps, ← hM]

/-- **C24, finding.** If a function transforms its parameters but offers no gradient (Gaussian does not
implement one), the covariances of its parameters stay those of the old parametrisation although the
parameter values are converted. -/
theorem c24_missing_gradient [CommRing K] (D : Part K → Res (ℕ → ℕ → K)) (inF outF : Option String)
    {st : MC K} {M : Mat K} {ps : List (Part K)} (hM : st.cov = some M) (hps : st.model = some ps)
    (hmap : Mapped ps st) (hwf : WFParts ps) (hn : M.n = total ps)
    (hpos : ∀ p ∈ ps, 0 < p.owner.npars) (hsym : ∀ a b, M.e a b = M.e b a)
    (hD : ∀ p ∈ ps, D p = .error .notImplemented)
    (hT : ∀ p ∈ ps, ∃ q, p.owner.transform p.pars inF outF = .ok q) :
    ∃ st' ps', transform D inF outF st .all = (.ok (), st') ∧ st'.model = some ps' ∧
      (∀ (k : ℕ) p, ps[k]? = some p → ∃ q, p.owner.transform p.pars inF outF = .ok q ∧
        ps'[k]? = some { p with pars := q }) ∧
      ∀ (i i' : ℕ) p p' j j', ps[i]? = some p → ps[i']? = some p' → j < p.pars.length →
        j' < p'.pars.length →
        st'.getcovariance (.pair i j) (.pair i' j') = st.getcovariance (.pair i j) (.pair i' j') := by
  have hmem : ∀ k, k ∈ List.range ps.length → ∃ p, ps[k]? = some p ∧ 0 < p.owner.npars := by
    intro k hk
    have hk' := List.mem_range.1 hk
    exact ⟨ps[k], List.getElem?_eq_getElem hk', hpos _ (List.getElem_mem hk')⟩
  obtain ⟨st', ps', G, a1, a2, a3, -⟩ := c24_transform D inF outF hM hps hmap hwf hn .all
    (List.range ps.length) rfl List.nodup_range hmem
  obtain ⟨st'', b1, b2⟩ := c24_diagonal D inF outF hM hps hmap hwf hn .all
    (List.range ps.length) rfl List.nodup_range hmem hsym (fun k _ p hp a b hab => by
      unfold gradOf
      rw [hD p (List.mem_of_getElem? hp)]
      simp [hab])
  rw [a1] at b1
  simp only [Prod.mk.injEq, true_and] at b1
  subst b1
  refine ⟨st', ps', a1, a2, ?_, ?_⟩
  · intro k p hp
    obtain ⟨q, hq⟩ := hT p (List.mem_of_getElem? hp)
    refine ⟨q, hq, ?_⟩
    have hk : k < ps.length := by
      by_contra hc
      rw [List.getElem?_eq_none (by omega)] at hp
      simp at hp
    rw [a3, if_pos (List.mem_range.2 hk), hp]
    simp only [Option.map_some, movedOf, hq]
  · intro i i' p p' j j' hp hp' hj hj'
    have hc : st.getcovariance (.pair i j) (.pair i' j') = .ok (M.e (off ps i + j) (off ps i' + j')) := by
      unfold MC.getcovariance
      rw [hM]
      simp only [MC.index, hmap.pmap i p hp j hj, hmap.pmap i' p' hp' j' hj', Mat.get, hn,
        off_add_lt hp hj, off_add_lt hp' hj', and_self, if_true]
    have hf : ∀ (m : ℕ) q x, ps[m]? = some q →
        factor D inF outF (List.range ps.length) m q x = 1 := by
      intro m q x hq
      unfold factor gradOf
      rw [hD q (List.mem_of_getElem? hq)]
      simp
    rw [b2 i i' p p' j j' _ hp hp' hj hj' hc, hc, hf i p j hp, hf i' p' j' hp', one_mul, mul_one]

/-- **C24, finding.** A selected part without parameters (the interpolated baseline has none) makes
`transform` raise IndexError after the parts before it have had their parameters transformed: the model
and the covariance matrix then belong to different parametrisations. -/
theorem c24_parameterless_part [CommRing K] (D : Part K → Res (ℕ → ℕ → K)) (inF outF : Option String)
    {st : MC K} {M : Mat K} {ps : List (Part K)} (hM : st.cov = some M)
    (b : Part K) (hps : st.model = some (ps ++ [b])) (hmap : Mapped (ps ++ [b]) st)
    (hwf : WFParts (ps ++ [b])) (hpos : ∀ p ∈ ps, 0 < p.owner.npars) (hb : b.owner.npars = 0) :
    transform D inF outF st .all =
      (.error .index, { st with model := some (ps.map (movedOf inF outF) ++ [b]) }) := by
  have hlen : (ps ++ [b])[ps.length]? = some b := by simp
  have key : ∀ (l l' : List (Part K)) (g : ℕ → ℕ → K),
      (∀ (k : ℕ) p, l'[k]? = some p → Dict.get? st.mmap (l.length + k) =
        some (off (ps ++ [b]) (l.length + k), p.npars true)) →
      (∀ p ∈ l', 0 < p.owner.npars) →
      Dict.get? st.mmap (l.length + l'.length) = some (off (ps ++ [b]) (l.length + l'.length), 0) →
      gradLoop D inF outF st.mmap
        ((List.range' l.length (l'.length + 1)).map (fun (i : ℕ) => (i : ℤ))) g (l ++ l' ++ [b]) =
      (.error .index, l ++ l'.map (movedOf inF outF) ++ [b]) := by
    intro l l'
    induction l' generalizing l with
    | nil =>
      intro g _ _ h0
      simp only [List.length_nil, Nat.zero_add, List.range'_one, List.map_cons, List.map_nil]
      unfold gradLoop
      rw [if_neg (by omega)]
      simp only [Int.toNat_natCast]
      rw [List.length_nil, Nat.add_zero] at h0
      rw [h0]
      simp
    | cons c l' ih =>
      intro g h1 h2 h3
      rw [List.length_cons, List.range'_succ, List.map_cons]
      unfold gradLoop
      rw [if_neg (by omega)]
      simp only [Int.toNat_natCast]
      have hc := h1 0 c rfl
      rw [Nat.add_zero] at hc
      rw [hc]
      have : (0 : ℕ) < c.npars true := by
        have := h2 c List.mem_cons_self
        simpa [Part.npars] using this
      simp only
      rw [if_neg (by omega)]
      have hg : (l ++ c :: l' ++ [b])[l.length]? = some c := by simp
      rw [hg]
      simp only [subTransform_eq]
      have hs : (l ++ c :: l' ++ [b]).set l.length (movedOf inF outF c) =
          (l ++ [movedOf inF outF c]) ++ l' ++ [b] := by simp
      rw [hs]
      have := ih (l ++ [movedOf inF outF c]) (setBlock g (off (ps ++ [b]) l.length) (c.npars true)
        (gradOf D inF outF c)) (by
          intro k p hp
          have := h1 (k + 1) p (by simpa using hp)
          rw [List.length_append, List.length_singleton]
          rw [show l.length + 1 + k = l.length + (k + 1) by omega]
          exact this) (fun p hp => h2 p (List.mem_cons_of_mem _ hp)) (by
          rw [List.length_append, List.length_singleton]
          rw [show l.length + 1 + l'.length = l.length + (c :: l').length by simp; omega]
          exact h3)
      rw [List.length_append, List.length_singleton] at this
      rw [this]
      simp
  have := key [] ps delta (by
      intro k p hp
      have hp' : (ps ++ [b])[k]? = some p := by
        rw [List.getElem?_append_left]
        · exact hp
        · by_contra hc
          rw [List.getElem?_eq_none (by omega)] at hp
          simp at hp
      simpa using hmap.mmap k p hp') hpos (by
      have := hmap.mmap ps.length b hlen
      rw [show b.npars true = 0 by simp [Part.npars, hb]] at this
      simpa using this)
  unfold transform
  rw [hM, hps]
  simp only [Which.list]
  rw [show (ps ++ [b]).length = ps.length + 1 by simp, List.range_eq_range']
  simp only [List.length_nil, List.nil_append] at this
  rw [this]

/-- Instance of `c24_parameterless_part`: one ordinary part and one without parameters. -/
example :
    ∃ st, setcovariance (MC.empty : MC ℚ) [exPart 1 2, ⟨{ exOwner with npars := 0 }, [], [], true, false, false⟩]
        2 2 (fun a b => if a = b then 2 else 1) = (.ok (), st) ∧
      (transform (fun _ => .ok (fun a b => if a = b then 2 else 0)) (some "internal") (some "double")
        st .all).1 = .error .index ∧
      (transform (fun _ => .ok (fun a b => if a = b then 2 else 0)) (some "internal") (some "double")
        st .all).2.getvalue (.pair 0 0) = .ok 2 ∧
      (transform (fun _ => .ok (fun a b => if a = b then 2 else 0)) (some "internal") (some "double")
        st .all).2.getcovariance (.pair 0 0) (.pair 0 0) = .ok 2 := by
  refine ⟨_, rfl, ?_, ?_, ?_⟩ <;> decide +kernel

/-- **C24, finding.** For a gradient that is not symmetric the formula used, `G Vᵀ G`, is not the
covariance `G V Gᵀ` of the new parameters: here `y₀ = x₀ + x₁`, `y₁ = x₁` with unit variances gives
variance 1 instead of 2 for `y₀`. -/
theorem c24_nonsymmetric_gradient :
    ∃ st, setcovariance (MC.empty : MC ℚ) [exPart 1 2] 2 2 (fun a b => if a = b then 1 else 0) =
        (.ok (), st) ∧
      (transform (fun _ => .ok (fun a b => if a = 1 ∧ b = 0 then 0 else 1)) (some "internal")
        (some "double") st .all).2.getcovariance (.pair 0 0) (.pair 0 0) = .ok 1 := by
  refine ⟨_, rfl, ?_⟩
  decide +kernel

/-- Instance of the hypotheses of `c23_correlation`, `c56_correlationwarning`, `c24_positive`: a fitted
pair of parts with the identity as covariance matrix. -/
example : ∃ (st : MC ℝ) (M : Mat ℝ) (ps : List (Part ℝ)), ps.length = 2 ∧ st.cov = some M ∧
    st.model = some ps ∧ M.toMatrix.PosSemidef ∧ Mapped ps st ∧ WFParts ps ∧ M.n = total ps ∧
    total ps = 4 := by
  let o : Owner ℝ := ⟨0, 2, [], fun _ r => r, fun _ _ _ => [none, none], fun v _ _ => .ok v⟩
  let p : Part ℝ := ⟨o, [1, 2], [true, true], true, false, false⟩
  have hwf : WFParts [p, p] := by
    intro q hq
    simp only [List.mem_cons, List.not_mem_nil, or_false, or_self] at hq
    subst hq
    exact ⟨rfl, rfl⟩
  obtain ⟨st, M, h1, h2, h3, h4, h5, h6⟩ := setcov_ok (MC.empty : MC ℝ) hwf (by simp) 4 (Or.inl rfl)
    (fun a b => if a = b then 1 else 0)
  refine ⟨st, M, [p, p], rfl, h2, h3, ?_, h4, hwf, h5, rfl⟩
  have : M.toMatrix = 1 := by
    ext a b
    have ha := a.2
    have hb := b.2
    have ha : (a : ℕ) < total [p, p] := h5 ▸ ha
    have hb : (b : ℕ) < total [p, p] := h5 ▸ hb
    obtain ⟨i, q, j, hq, hj, e1⟩ := exists_split ha
    obtain ⟨i', q', j', hq', hj', e2⟩ := exists_split hb
    unfold Mat.toMatrix
    rw [e1, e2, h6 i i' q q' j j' hq hq' hj hj',
      if_pos (show 4 = npars [p, p] true from rfl), ← e1, ← e2, Matrix.one_apply]
    simp only [Fin.ext_iff]
  rw [this]
  exact Matrix.PosSemidef.one

end Verif.Parts.Covariance
