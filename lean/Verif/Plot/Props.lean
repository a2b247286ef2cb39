import Verif.Plot.Model
import Verif.Pdf.Resample
import Verif.PdfExtract.Lemmas
import Verif.Extract.Props

/-!
# C86: what `makeplot` draws
-/

set_option linter.unusedSectionVars false

namespace Verif.Plot

open Verif.Py Verif.PeakList Verif.Extraction Verif.Pdf Verif.Parts.Extract Verif.Parts.ModelCluster
open Verif.Parts.PdfExtract Verif.Parts

variable {K : Type} [Field K] [LinearOrder K] [IsStrictOrderedRing K] [FloorSemiring K]

/-! ### Lemmas -/

theorem bindOk {α β : Type} {r : Res α} {f : α → Res β} {b : β} (h : (r >>= f) = .ok b) : ∃ a, r = .ok a ∧ f a = .ok b := by
  cases r with
  | error e => cases h
  | ok a => exact ⟨a, rfl, h⟩

theorem lowest_ok {l : List K} {m : K} (h : lowest l = .ok m) : m ∈ l ∧ ∀ a ∈ l, m ≤ a := by
  unfold lowest at h
  split at h
  · simp at h
  · rename_i v hv
    simp only [Except.ok.injEq] at h
    subst h
    exact List.min?_eq_some_iff.1 hv

theorem highest_ok {l : List K} {m : K} (h : highest l = .ok m) : m ∈ l ∧ ∀ a ∈ l, a ≤ m := by
  unfold highest at h
  split at h
  · simp at h
  · rename_i v hv
    simp only [Except.ok.injEq] at h
    subst h
    exact List.max?_eq_some_iff.1 hv

theorem each_ok {f : List K → Res K} : ∀ {ls : List (List K)} {vs : List K}, each f ls = .ok vs →
    ∀ l ∈ ls, ∃ v ∈ vs, f l = .ok v := by
  intro ls
  induction ls with
  | nil => intro vs _ l hl; simp at hl
  | cons a ls ih =>
    intro vs h l hl
    unfold each at h
    split at h
    · simp at h
    · rename_i v hv
      split at h
      · simp at h
      · rename_i vs' hvs
        simp only [Except.ok.injEq] at h
        subst h
        rcases List.mem_cons.1 hl with rfl | hl
        · exact ⟨v, by simp, hv⟩
        · obtain ⟨w, h1, h2⟩ := ih hvs l hl
          exact ⟨w, by simp [h1], h2⟩

/-- The least and largest of all curves. -/
structure Spans (k : Kwds K) (c : Curves K) (s mn mx a b : K) : Prop where
  lo : k.minGr = none → s ≠ 0 → ∀ l ∈ allGr k c, ∀ v ∈ l, mn ≤ v
  hi : k.maxGr = none → s ≠ 0 → ∀ l ∈ allGr k c, ∀ v ∈ l, v ≤ mx
  lo' : ∀ v, k.minGr = some v → mn = v * s
  hi' : ∀ v, k.maxGr = some v → mx = v * s
  res : k.showResidual = true → ∀ v ∈ c.res, unmasked k v → a ≤ v ∧ v ≤ b
  ab : a ≤ b
  ne : allGr k c ≠ []
  le : k.minGr = none → k.maxGr = none → s ≠ 0 → mn ≤ mx

theorem extremes_ok {k : Kwds K} {c : Curves K} {s mn mx a b : K} (h : extremes k c s = .ok (mn, mx, a, b)) :
    Spans k c s mn mx a b := by
  unfold extremes at h
  obtain ⟨l1, e1, h⟩ := bindOk h
  obtain ⟨lo, e2, h⟩ := bindOk h
  obtain ⟨l2, e3, h⟩ := bindOk h
  obtain ⟨hi, e4, h⟩ := bindOk h
  have hlo : ∀ l ∈ allGr k c, ∀ v ∈ l, lo ≤ v := by
    intro l hl v hv
    obtain ⟨w, w1, w2⟩ := each_ok e1 l hl
    exact le_trans ((lowest_ok e2).2 w w1) ((lowest_ok w2).2 v hv)
  have hhi : ∀ l ∈ allGr k c, ∀ v ∈ l, v ≤ hi := by
    intro l hl v hv
    obtain ⟨w, w1, w2⟩ := each_ok e3 l hl
    exact le_trans ((highest_ok w2).2 v hv) ((highest_ok e4).2 w w1)
  have hne : allGr k c ≠ [] := by
    intro h0
    rw [h0] at e1
    simp only [each, Except.ok.injEq] at e1
    subst e1
    simp [lowest] at e2
  have hlh : lo ≤ hi := by
    obtain ⟨l, ls, hl⟩ := List.exists_cons_of_ne_nil hne
    obtain ⟨w, w1, w2⟩ := each_ok e1 l (by rw [hl]; simp)
    have := (lowest_ok w2).1
    exact le_trans (hlo l (by rw [hl]; simp) w this) (hhi l (by rw [hl]; simp) w this)
  have fin : ∀ a' b' : K, a' ≤ b' → (k.showResidual = true → ∀ v ∈ c.res, unmasked k v → a' ≤ v ∧ v ≤ b') →
      (k.minGr.getD (lo / s) * s, k.maxGr.getD (hi / s) * s, a', b') = (mn, mx, a, b) → Spans k c s mn mx a b := by
    intro a' b' hab hres heq
    simp only [Prod.mk.injEq] at heq
    obtain ⟨rfl, rfl, rfl, rfl⟩ := heq
    refine ⟨?_, ?_, ?_, ?_, hres, hab, hne, ?_⟩
    · intro hn hs l hl v hv
      rw [hn, Option.getD_none, div_mul_cancel₀ _ hs]
      exact hlo l hl v hv
    · intro hn hs l hl v hv
      rw [hn, Option.getD_none, div_mul_cancel₀ _ hs]
      exact hhi l hl v hv
    · intro v hv; rw [hv]; rfl
    · intro v hv; rw [hv]; rfl
    · intro h1 h2 hs
      rw [h1, h2, Option.getD_none, Option.getD_none, div_mul_cancel₀ _ hs, div_mul_cancel₀ _ hs]
      exact hlh
  simp only at h
  split at h
  · obtain ⟨a', e5, h⟩ := bindOk h
    obtain ⟨b', e6, h⟩ := bindOk h
    have := (lowest_ok e5)
    have h' := (highest_ok e6)
    refine fin a' b' (this.2 _ h'.1) (fun _ v hv hm => ⟨this.2 v (List.mem_filter.2 ⟨hv, hm⟩), h'.2 v (List.mem_filter.2 ⟨hv, hm⟩)⟩) ?_
    simpa [pure, Except.pure] using h
  · rename_i hr
    refine fin 0 0 le_rfl (fun h => absurd h hr) ?_
    simpa [pure, Except.pure] using h

/-- The parts of a figure. -/
structure Made (resample : List K → List K → List K → Res (List K)) (x y : List K) (e : Shown K)
    (series : Option (List (K × List K))) (ip : Option (List K)) (k : Kwds K) (f : Figure K) (r0 r1 : K) (c : Curves K)
    (mn mx a b : K) : Prop where
  head : e.r.head? = some r0
  last : e.r.getLast? = some r1
  curves : curves resample x y e (k.xlo.getD r0) (k.xhi.getD r1) (k.scale.getD 1) = .ok c
  extremes : extremes k c (k.scale.getD 1) = .ok (mn, mx, a, b)
  xlim : f.xlim = (k.xlo.getD r0, k.xhi.getD r1)
  lims : (f.ylim.1, f.ylim.2, f.datatop, f.resbase) = limits k (heights k series.isSome ip.isSome) mn mx a b
  observed : f.observed = if k.showObserved then some (c.rexpand.zip c.obs) else none
  fit : f.fit = if k.showFit then some (c.rfine.zip c.fit) else none
  fills : f.fills = if k.fillIndividual then c.ind.map (fun p => c.rfine.zip (c.bl.zip p)) else []
  residual : f.residual = if k.showResidual then some (((e.r.zip c.res).filter (fun q => unmasked k q.2)).map (fun q => (q.1, q.2 + f.resbase))) else none
  cmp : f.cmp = if 0 < (heights k series.isSome ip.isSome).cmp then some (comparepositions (e.peaks.map Prod.fst) ip 0 (-1) 1 none none) else none
  dg : (0 < (heights k series.isSome ip.isSome).dg → ∃ l d, series = some l ∧ dgseries l k.scale k.dgmin k.dgmax r0 (some r1) = .ok d ∧ f.dg = some d) ∧
    (¬ 0 < (heights k series.isSome ip.isSome).dg → f.dg = none)

theorem makeplot_ok {resample : List K → List K → List K → Res (List K)} {x y : List K} {e : Shown K}
    {series : Option (List (K × List K))} {ip : Option (List K)} {k : Kwds K} {f : Figure K}
    (h : makeplot resample x y e series ip k = .ok f) : ∃ r0 r1 c mn mx a b, Made resample x y e series ip k f r0 r1 c mn mx a b := by
  unfold makeplot at h
  split at h
  · rename_i r0 r1 h0 h1
    simp only at h
    obtain ⟨c, e1, h⟩ := bindOk h
    obtain ⟨⟨mn, mx, a, b⟩, e2, h⟩ := bindOk h
    simp only at h
    obtain ⟨dg, e3, h⟩ := bindOk h
    simp only [pure, Except.pure, Except.ok.injEq] at h
    refine ⟨r0, r1, c, mn, mx, a, b, ⟨h0, h1, e1, e2, ?_, ?_, ?_, ?_, ?_, ?_, ?_, ?_, ?_⟩⟩
    · rw [← h]
    · rw [← h]
    · rw [← h]
    · rw [← h]
    · rw [← h]
    · rw [← h]
    · rw [← h]
    · intro hd
      rw [if_pos hd] at e3
      rcases series with _ | l
      · simp at e3
      · simp only at e3
        split at e3
        · simp at e3
        · rename_i d hd'
          simp only [Except.ok.injEq] at e3
          exact ⟨l, d, rfl, hd', by rw [← h, ← e3]⟩
    · intro hd
      rw [if_neg hd] at e3
      simp only [Except.ok.injEq] at e3
      rw [← h, ← e3]
  · simp at h

theorem mem_zip_snd {α β : Type} {l : List α} {m : List β} {q : α × β} (h : q ∈ l.zip m) : q.2 ∈ m :=
  (List.of_mem_zip (a := q.1) (b := q.2) h).2

/-! ### The properties -/

/-- **C86.** With the limits left to `makeplot` (and heights that leave room), nothing overlaps: with `H` the height of
the plot, every value of the observed data, of the fit and of the single peaks lies below the insets by at least the
given offset, above every value of the residual by at least the given offset, and every value of the residual lies above
the lower limit by at least the given offset; the insets take exactly their share of the height. -/
theorem c86_bands {resample : List K → List K → List K → Res (List K)} {x y : List K} {e : Shown K}
    {series : Option (List (K × List K))} {ip : Option (List K)} {k : Kwds K} {f : Figure K}
    (h : makeplot resample x y e series ip k = .ok f) {hs : Heights K} (hhs : hs = heights k series.isSome ip.isSome)
    (hrel : hs.top + hs.dg + hs.cmp + hs.datatop + hs.databottom + hs.bottom < 100)
    (hscale : k.scale ≠ some 0) (h1 : k.minGr = none) (h2 : k.maxGr = none) (h3 : k.ylo = none) (h4 : k.yhi = none)
    (h5 : k.resbase = none) {H : K} (hH : H = f.ylim.2 - f.ylim.1) :
    0 ≤ H ∧ f.ylim.2 - f.datatop = (hs.top + hs.dg + hs.cmp) / 100 * H ∧
    ∃ lo hi res : K, lo ≤ hi ∧ hi + hs.datatop / 100 * H = f.datatop ∧ res + hs.databottom / 100 * H = lo ∧
      f.ylim.1 + hs.bottom / 100 * H ≤ res ∧
      (∀ l, f.observed = some l → ∀ q ∈ l, lo ≤ q.2 ∧ q.2 ≤ hi) ∧
      (∀ l, f.fit = some l → ∀ q ∈ l, lo ≤ q.2 ∧ q.2 ≤ hi) ∧
      (k.showIndividual = true → ∀ l ∈ f.fills, ∀ q ∈ l, (lo ≤ q.2.1 ∧ q.2.1 ≤ hi) ∧ lo ≤ q.2.2 ∧ q.2.2 ≤ hi) ∧
      (∀ l, f.residual = some l → ∀ q ∈ l, f.ylim.1 + hs.bottom / 100 * H ≤ q.2 ∧ q.2 ≤ res) := by
  obtain ⟨r0, r1, c, mn, mx, a, b, m⟩ := makeplot_ok h
  have hsp := extremes_ok m.extremes
  have hs0 : k.scale.getD 1 ≠ 0 := by
    cases hk : k.scale with
    | none => simp
    | some v => simp only [Option.getD_some]; intro h0; exact hscale (by rw [hk, h0])
  have hl := m.lims
  rw [← hhs] at hl
  unfold limits at hl
  rw [h3, h4, h5] at hl
  simp only [Option.getD_none, Prod.mk.injEq] at hl
  obtain ⟨l1, l2, l3, l4⟩ := hl
  have hmm := hsp.le h1 h2 hs0
  have hab := hsp.ab
  have hr : 0 < 100 - hs.top - hs.dg - hs.cmp - hs.datatop - hs.databottom - hs.bottom := by linarith
  generalize hrr : 100 - hs.top - hs.dg - hs.cmp - hs.datatop - hs.databottom - hs.bottom = rel at *
  have hHe : H = 100 * ((mx - mn) + (b - a)) / rel := by rw [hH, l1, l2]; ring
  rw [← hHe] at l1 l2 l4
  have hHr : H * rel = 100 * ((mx - mn) + (b - a)) := by rw [hHe]; field_simp
  have hH0 : 0 ≤ H := by
    rw [hHe]
    apply div_nonneg
    · apply mul_nonneg (by norm_num); linarith
    · exact hr.le
  have l3' : f.datatop = f.ylim.2 - H * (1 / 100) * (hs.top + hs.dg + hs.cmp) := by
    rw [l3, l2]; rw [hHe]; ring
  have obs : ∀ l ∈ allGr k c, ∀ v ∈ l, mn ≤ v ∧ v ≤ mx := fun l hl v hv => ⟨hsp.lo h1 hs0 l hl v hv, hsp.hi h2 hs0 l hl v hv⟩
  have key : mn = f.ylim.1 + hs.bottom * H / 100 + (b - a) + hs.databottom / 100 * H := by
    rw [l1]
    have : rel = 100 - hs.top - hs.dg - hs.cmp - hs.datatop - hs.databottom - hs.bottom := hrr.symm
    rw [this] at hHr
    linarith
  refine ⟨hH0, by rw [l3']; ring, mn, mx, f.ylim.1 + hs.bottom * H / 100 + (b - a), hmm, ?_, key.symm, ?_, ?_, ?_, ?_, ?_⟩
  · rw [l3', l2]; ring
  · have : hs.bottom / 100 * H = hs.bottom * H / 100 := by ring
    rw [this]; linarith
  · intro l hl q hq
    rw [m.observed] at hl
    split at hl
    · rename_i hso
      simp only [Option.some.injEq] at hl
      subst hl
      exact obs c.obs (by unfold allGr; simp [hso]) _ (mem_zip_snd hq)
    · simp at hl
  · intro l hl q hq
    rw [m.fit] at hl
    split at hl
    · rename_i hso
      simp only [Option.some.injEq] at hl
      subst hl
      exact obs c.fit (by unfold allGr; simp [hso]) _ (mem_zip_snd hq)
    · simp at hl
  · intro hsi l hl q hq
    rw [m.fills] at hl
    split at hl
    · obtain ⟨p, hp, rfl⟩ := List.mem_map.1 hl
      have h2 := mem_zip_snd hq
      have h3 := List.of_mem_zip (a := q.2.1) (b := q.2.2) h2
      exact ⟨obs c.bl (by unfold allGr; simp [hsi]) _ h3.1, obs p (by unfold allGr; simp [hsi, hp]) _ h3.2⟩
    · simp at hl
  · intro l hl q hq
    rw [m.residual] at hl
    split at hl
    · rename_i hso
      simp only [Option.some.injEq] at hl
      subst hl
      obtain ⟨v, hv, rfl⟩ := List.mem_map.1 hq
      have := hsp.res hso v.2 (mem_zip_snd (List.mem_filter.1 hv).1) (List.mem_filter.1 hv).2
      simp only
      rw [l4, ← l1]
      have e : hs.bottom / 100 * H = hs.bottom * H / 100 := by ring
      rw [e]
      constructor <;> linarith
    · simp at hl

theorem zip_map_self {α β : Type} (g : α → β) (l : List α) : l.zip (l.map g) = l.map (fun a => (a, g a)) := by
  induction l with
  | nil => rfl
  | cons a l ih => simp [ih]

theorem ends_le {r : List K} (h : r.Pairwise (· < ·)) {a b : K} (h0 : r.head? = some a) (h1 : r.getLast? = some b) : a ≤ b := by
  obtain ⟨l, rfl⟩ : ∃ l, r = a :: l := by
    cases r with
    | nil => simp at h0
    | cons c l => simp only [List.head?_cons, Option.some.injEq] at h0; exact ⟨l, by rw [h0]⟩
  rcases List.mem_cons.1 (List.mem_of_getLast? h1) with rfl | hb
  · exact le_rfl
  · exact ((List.pairwise_cons.1 h).1 b hb).le

theorem arange_ok {a b d : K} {l : List K} (h : arange a b d = .ok l) :
    d ≠ 0 ∧ l = (List.range ⌈(b - a) / d⌉₊).map (fun k : ℕ => a + k * d) := by
  unfold arange at h
  split at h
  · simp at h
  · rename_i hd
    simp only [Except.ok.injEq] at h
    exact ⟨hd, h.symm⟩

/-- The curves of a figure. -/
theorem curves_ok {resample : List K → List K → List K → Res (List K)} {x y : List K} {e : Shown K} {xlo xhi s r0 r1 : K}
    {c : Curves K} (h : curves resample x y e xlo xhi s = .ok c) (h0 : e.r.head? = some r0) (h1 : e.r.getLast? = some r1) :
    ∃ obs, rexpand e.r r0 r1 xlo xhi ((r1 - r0) / e.r.length) = .ok c.rexpand ∧
      arange r0 r1 (1 / 10 * ((r1 - r0) / e.r.length)) = .ok c.rfine ∧ resample x y c.rexpand = .ok obs ∧
      c.obs = obs.map (· * s) ∧ c.fit = c.rfine.map (fun a => e.value a * s) ∧ c.bl = c.rfine.map (fun a => e.bl a * s) ∧
      c.ind = e.peaks.map (fun p => c.rfine.map (fun a => e.bl a * s + p.2 a * s)) ∧
      c.res = List.zipWith (fun a v => (v - e.value a) * s) e.r e.y := by
  unfold curves at h
  rw [h0, h1] at h
  simp only at h
  obtain ⟨re, e1, h⟩ := bindOk h
  obtain ⟨rf, e2, h⟩ := bindOk h
  obtain ⟨obs, e3, h⟩ := bindOk h
  simp only [pure, Except.pure, Except.ok.injEq] at h
  subst h
  refine ⟨obs, e1, e2, e3, rfl, rfl, rfl, ?_, rfl⟩
  simp only [List.zipWith_map, List.zipWith_self]

theorem curves_fine {r0 r1 : K} (hlt : r0 < r1) {n : ℕ} (hn : 0 < n) {l : List K}
    (h : arange r0 r1 (1 / 10 * ((r1 - r0) / n)) = .ok l) :
    l = (List.range (10 * n)).map (fun k : ℕ => r0 + k * ((r1 - r0) / (10 * n))) := by
  obtain ⟨-, rfl⟩ := arange_ok h
  have hn' : (n : K) ≠ 0 := by exact_mod_cast hn.ne'
  have hd : r1 - r0 ≠ 0 := by rw [sub_ne_zero]; exact hlt.ne'
  have e1 : (r1 - r0) / (1 / 10 * ((r1 - r0) / n)) = ((10 * n : ℕ) : K) := by
    push_cast
    field_simp
  rw [e1, Nat.ceil_natCast]
  apply List.map_congr_left
  intro k _
  field_simp

theorem unmasked_iff {k : Kwds K} {v : K} : unmasked k v = true ↔ ∀ m, k.maskResidual = some m → m ≠ 0 → |v| ≤ |m| := by
  unfold unmasked
  cases hk : k.maskResidual with
  | none => simp
  | some m =>
    simp only [Bool.or_eq_true, decide_eq_true_eq, Bool.and_eq_true, Option.some.injEq, forall_eq', ne_eq]
    rcases le_total 0 m with h | h
    · rw [abs_of_nonneg h, min_eq_left (by linarith), max_eq_right (by linarith), ← abs_le]
      exact or_iff_not_imp_left
    · rw [abs_of_nonpos h, min_eq_right (by linarith), max_eq_left (by linarith), abs_le, neg_neg]
      exact or_iff_not_imp_left

/-- **C86.** The curves: the fit is the scaled value of the model on a grid ten times as fine as the cluster's, from its
first point to before its last; each peak is filled between the baseline and the baseline plus the peak alone; the residual
is the scaled difference of the data and the model at each point of the cluster (with `mask_residual`, at each where it is not larger
than that number in absolute value; 0 is the same as none), shifted by one number.  The limits of the
x-axis are those asked for, or the ends of the cluster. -/
theorem c86_curves {resample : List K → List K → List K → Res (List K)} {x y : List K} {e : Shown K}
    {series : Option (List (K × List K))} {ip : Option (List K)} {k : Kwds K} {f : Figure K}
    (h : makeplot resample x y e series ip k = .ok f) (hinc : e.r.Pairwise (· < ·)) :
    ∃ r0 r1, e.r.head? = some r0 ∧ e.r.getLast? = some r1 ∧ f.xlim = (k.xlo.getD r0, k.xhi.getD r1) ∧
      ∃ g : List K, g = (List.range (10 * e.r.length)).map (fun i : ℕ => r0 + i * ((r1 - r0) / (10 * e.r.length))) ∧
      (f.fit = if k.showFit then some (g.map (fun a => (a, e.value a * k.scale.getD 1))) else none) ∧
      (f.fills = if k.fillIndividual then e.peaks.map (fun p => g.map (fun a =>
        (a, e.bl a * k.scale.getD 1, (e.bl a + p.2 a) * k.scale.getD 1))) else []) ∧
      (f.residual = if k.showResidual then some (((e.r.zip e.y).filter (fun q =>
          ∀ m, k.maskResidual = some m → m ≠ 0 → |(q.2 - e.value q.1) * k.scale.getD 1| ≤ |m|)).map (fun q =>
        (q.1, (q.2 - e.value q.1) * k.scale.getD 1 + f.resbase))) else none) := by
  classical
  obtain ⟨r0, r1, c, mn, mx, a, b, m⟩ := makeplot_ok h
  obtain ⟨obs, c1, c2, c3, c4, c5, c6, c7, c8⟩ := curves_ok m.curves m.head m.last
  refine ⟨r0, r1, m.head, m.last, m.xlim, c.rfine, ?_, ?_, ?_, ?_⟩
  · have hpos : 0 < e.r.length := by
      rw [List.length_pos_iff]; intro h0; have := m.head; rw [h0] at this; simp at this
    refine curves_fine ?_ hpos c2
    obtain ⟨hd, -⟩ := arange_ok c2
    have hle : r0 ≤ r1 := ends_le hinc m.head m.last
    rcases hle.lt_or_eq with h | h
    · exact h
    · exfalso; apply hd; rw [h]; simp
  · rw [m.fit, c5]
    split
    · rw [zip_map_self]
    · rfl
  · rw [m.fills, c6, c7]
    split
    · rw [List.map_map]
      apply List.map_congr_left
      intro p _
      simp only [Function.comp_apply]
      rw [List.zip_map', zip_map_self]
      apply List.map_congr_left
      intro v _
      rw [add_mul]
    · rfl
  · rw [m.residual, c8]
    split
    · congr 1
      have hz : e.r.zip (List.zipWith (fun a v => (v - e.value a) * k.scale.getD 1) e.r e.y) =
          (e.r.zip e.y).map (fun q => (q.1, (q.2 - e.value q.1) * k.scale.getD 1)) := by
        rw [List.zip_eq_zipWith, List.zip_eq_zipWith, List.map_zipWith]
        apply List.ext_getElem?
        intro i
        simp only [List.getElem?_zipWith]
        cases e.r[i]? <;> cases e.y[i]? <;> rfl
      rw [hz, List.filter_map, List.map_map]
      congr 1
      apply List.filter_congr
      intro q _
      rw [Bool.eq_iff_iff]
      simp only [Function.comp_apply, unmasked_iff, decide_eq_true_eq]
    · rfl

/-- Where the observed data are shown: around the cluster. -/
theorem rexpand_ok {r : List K} {r0 r1 xlo xhi d : K} (hd : 0 < d) {l : List K} (h : rexpand r r0 r1 xlo xhi d = .ok l) :
    ∃ a b : ℕ, l = ((List.range a).map (fun k : ℕ => r0 - d - k * d)).reverse ++ r ++ (List.range b).map (fun k : ℕ => r1 + d + k * d) ∧
      (∀ k : ℕ, k < a ↔ xlo < r0 - d - k * d) ∧ (∀ k : ℕ, k < b ↔ r1 + d + k * d < xhi + d) := by
  unfold rexpand at h
  obtain ⟨l1, e1, h⟩ := bindOk h
  obtain ⟨l2, e2, h⟩ := bindOk h
  simp only [pure, Except.pure, Except.ok.injEq] at h
  obtain ⟨-, rfl⟩ := arange_ok e1
  obtain ⟨-, rfl⟩ := arange_ok e2
  refine ⟨⌈(xlo - (r0 - d)) / -d⌉₊, ⌈(xhi + d - (r1 + d)) / d⌉₊, ?_, ?_, ?_⟩
  · rw [← h]
    congr 3
    apply List.map_congr_left
    intro k _
    ring
  · intro k
    rw [Nat.lt_ceil, lt_div_iff_of_neg (by linarith)]
    constructor <;> intro h <;> linarith
  · intro k
    rw [Nat.lt_ceil, lt_div_iff₀ hd]
    constructor <;> intro h <;> linarith

/-- **C86.** Where the observed data are shown: at increasing coordinates, among them all points of the cluster and, between
the ends of the cluster, no others; beyond them in steps of less than the mean distance of the points, to the limits of the
x-axis: the first coordinate is within a step of the lower limit, the last is not below the upper one and less than a step
beyond.  If no limits are given, they are shown at the points of the cluster. -/
theorem c86_grid {resample : List K → List K → List K → Res (List K)} {x y : List K} {e : Shown K}
    {series : Option (List (K × List K))} {ip : Option (List K)} {k : Kwds K} {f : Figure K}
    (h : makeplot resample x y e series ip k = .ok f) (hinc : e.r.Pairwise (· < ·)) {r0 r1 : K} (h0 : e.r.head? = some r0)
    (h1 : e.r.getLast? = some r1) (hlen : ∀ a b l o, resample a b l = .ok o → o.length = l.length) {obs : List (K × K)}
    (ho : f.observed = some obs) :
    ∃ d left right, d = (r1 - r0) / e.r.length ∧ 0 < d ∧ obs.map Prod.fst = left ++ e.r ++ right ∧
      (obs.map Prod.fst).Pairwise (· < ·) ∧
      (∀ v ∈ left, f.xlim.1 < v ∧ v < r0) ∧ (∀ v ∈ right, r1 < v ∧ v < f.xlim.2 + d) ∧
      (∀ v, f.xlim.1 < v → v + d < r0 → ∃ w ∈ left, v < w ∧ w ≤ v + d) ∧
      (∀ v, r1 < v → v < f.xlim.2 → ∃ w ∈ right, v ≤ w ∧ w < v + d) ∧
      (k.xlo = none → left = []) ∧ (k.xhi = none → right = []) := by
  obtain ⟨q0, q1, c, mn, mx, a, b, m⟩ := makeplot_ok h
  have g0 := m.head; have g1 := m.last
  rw [h0, Option.some.injEq] at g0
  rw [h1, Option.some.injEq] at g1
  subst g0 g1
  obtain ⟨ob, c1, c2, c3, c4, -⟩ := curves_ok m.curves h0 h1
  have hpos : 0 < e.r.length := by
    rw [List.length_pos_iff]; intro hn; rw [hn] at h0; simp at h0
  have hpos' : (0 : K) < e.r.length := by exact_mod_cast hpos
  have hlt : r0 < r1 := by
    rcases (ends_le hinc h0 h1).lt_or_eq with h | h
    · exact h
    · exfalso
      obtain ⟨hd, -⟩ := arange_ok c2
      apply hd; rw [h]; simp
  have hd : 0 < (r1 - r0) / e.r.length := div_pos (sub_pos.2 hlt) hpos'
  obtain ⟨na, nb, hl, ha, hb⟩ := rexpand_ok hd c1
  have hx1 : f.xlim.1 = k.xlo.getD r0 := by rw [m.xlim]
  have hx2 : f.xlim.2 = k.xhi.getD r1 := by rw [m.xlim]
  generalize (r1 - r0) / (e.r.length : K) = d at *
  have hobs : obs.map Prod.fst = c.rexpand := by
    have := m.observed
    rw [ho] at this
    split at this
    · simp only [Option.some.injEq] at this
      rw [this, List.map_fst_zip]
      rw [c4, List.length_map, hlen _ _ _ _ c3]
    · simp at this
  have hleft : ∀ v ∈ ((List.range na).map (fun k : ℕ => r0 - d - k * d)).reverse, f.xlim.1 < v ∧ v < r0 := by
    intro v hv
    rw [List.mem_reverse, List.mem_map] at hv
    obtain ⟨j, hj, rfl⟩ := hv
    refine ⟨by rw [hx1]; exact (ha j).1 (List.mem_range.1 hj), ?_⟩
    have : (0 : K) ≤ j := Nat.cast_nonneg j
    nlinarith
  have hright : ∀ v ∈ (List.range nb).map (fun k : ℕ => r1 + d + k * d), r1 < v ∧ v < f.xlim.2 + d := by
    intro v hv
    rw [List.mem_map] at hv
    obtain ⟨j, hj, rfl⟩ := hv
    refine ⟨?_, by rw [hx2]; exact (hb j).1 (List.mem_range.1 hj)⟩
    have : (0 : K) ≤ j := Nat.cast_nonneg j
    nlinarith
  have hmem : ∀ v ∈ e.r, r0 ≤ v ∧ v ≤ r1 := by
    intro v hv
    obtain ⟨l, hl'⟩ : ∃ l, e.r = r0 :: l := by
      cases hr : e.r with
      | nil => rw [hr] at h0; simp at h0
      | cons c l => rw [hr] at h0; simp only [List.head?_cons, Option.some.injEq] at h0; exact ⟨l, by rw [h0]⟩
    obtain ⟨l', hl''⟩ := List.getLast?_eq_some_iff.1 h1
    constructor
    · have hi := hinc
      rw [hl'] at hv hi
      rcases List.mem_cons.1 hv with rfl | hv
      · exact le_rfl
      · exact ((List.pairwise_cons.1 hi).1 v hv).le
    · have hi := hinc
      rw [hl''] at hv hi
      rcases List.mem_append.1 hv with hv | hv
      · exact ((List.pairwise_append.1 hi).2.2 v hv r1 (by simp)).le
      · rw [List.mem_singleton.1 hv]
  refine ⟨d, _, _, rfl, hd, by rw [hobs, hl], ?_, hleft, hright, ?_, ?_, ?_, ?_⟩
  · rw [hobs, hl, List.pairwise_append, List.pairwise_append]
    refine ⟨⟨?_, hinc, ?_⟩, ?_, ?_⟩
    · rw [List.pairwise_reverse, List.pairwise_map]
      apply List.pairwise_lt_range.imp
      intro i j hij
      have : (i : K) < j := by exact_mod_cast hij
      nlinarith
    · intro v hv w hw
      exact lt_of_lt_of_le (hleft v hv).2 (hmem w hw).1
    · rw [List.pairwise_map]
      apply List.pairwise_lt_range.imp
      intro i j hij
      have : (i : K) < j := by exact_mod_cast hij
      nlinarith
    · intro v hv w hw
      rcases List.mem_append.1 hv with hv | hv
      · exact lt_trans (lt_of_lt_of_le (hleft v hv).2 (ends_le hinc h0 h1)) (hright w hw).1
      · exact lt_of_le_of_lt (hmem v hv).2 (hright w hw).1
  · intro v hv hvd
    -- the greatest number of steps that stays right of v
    obtain ⟨j, hj1, hj2⟩ : ∃ j : ℕ, v < r0 - d - j * d ∧ r0 - d - j * d ≤ v + d := by
      have hq : 0 < (r0 - d - v) / d := div_pos (by linarith) hd
      refine ⟨⌈(r0 - d - v) / d⌉₊ - 1, ?_, ?_⟩
      · have h1' : 0 < ⌈(r0 - d - v) / d⌉₊ := Nat.ceil_pos.2 hq
        have h2' := Nat.ceil_lt_add_one hq.le
        have h3' : ((⌈(r0 - d - v) / d⌉₊ - 1 : ℕ) : K) = (⌈(r0 - d - v) / d⌉₊ : K) - 1 := by
          rw [Nat.cast_sub (by omega)]; simp
        rw [h3']
        have : (⌈(r0 - d - v) / d⌉₊ : K) - 1 < (r0 - d - v) / d := by linarith
        rw [lt_div_iff₀ hd] at this
        linarith
      · have h1' : 0 < ⌈(r0 - d - v) / d⌉₊ := Nat.ceil_pos.2 hq
        have h2' := Nat.le_ceil ((r0 - d - v) / d)
        have h3' : ((⌈(r0 - d - v) / d⌉₊ - 1 : ℕ) : K) = (⌈(r0 - d - v) / d⌉₊ : K) - 1 := by
          rw [Nat.cast_sub (by omega)]; simp
        rw [h3']
        rw [div_le_iff₀ hd] at h2'
        linarith
    refine ⟨_, List.mem_reverse.2 (List.mem_map.2 ⟨j, List.mem_range.2 ((ha j).2 ?_), rfl⟩), hj1, hj2⟩
    rw [← hx1]; linarith
  · intro v hv hvx
    have hq : 0 < (v - r1) / d := div_pos (by linarith) hd
    have h1' : 0 < ⌈(v - r1) / d⌉₊ := Nat.ceil_pos.2 hq
    have h2' := Nat.ceil_lt_add_one hq.le
    have h4' := Nat.le_ceil ((v - r1) / d)
    have h3' : ((⌈(v - r1) / d⌉₊ - 1 : ℕ) : K) = (⌈(v - r1) / d⌉₊ : K) - 1 := by
      rw [Nat.cast_sub (by omega)]; simp
    rw [div_le_iff₀ hd] at h4'
    have h5 : (⌈(v - r1) / d⌉₊ : K) - 1 < (v - r1) / d := by linarith
    rw [lt_div_iff₀ hd] at h5
    refine ⟨r1 + d + ((⌈(v - r1) / d⌉₊ - 1 : ℕ) : K) * d, List.mem_map.2 ⟨_, List.mem_range.2 ((hb _).2 ?_), rfl⟩, ?_, ?_⟩
    · rw [h3', ← hx2]; linarith
    · rw [h3']; linarith
    · rw [h3']; linarith
  · intro hn
    have : na = 0 := by
      by_contra h
      have := (ha 0).1 (by omega)
      rw [hn] at this
      simp at this
      linarith
    rw [this]; rfl
  · intro hn
    have : nb = 0 := by
      by_contra h
      have := (hb 0).1 (by omega)
      rw [hn] at this
      simp at this
    rw [this]; rfl

end Verif.Plot
