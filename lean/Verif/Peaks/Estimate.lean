import Verif.Peaks.Deriv

/-!
# Property C55: `estimate_parameters` of Gaussian and GaussianOverR
-/

namespace Verif.Peaks

open Verif.Py

/-- `np.sqrt(-0.5 * d**2 / np.log(q))`, `none` where it is NaN or infinite
— gaussian.py:135, 137-150, 152, 154-167. -/
noncomputable def sqrtLog? (d q : ℝ) : Option ℝ :=
  if q ≤ 0 then none
  else if Real.log q = 0 then none
  else if -0.5 * d ^ 2 / Real.log q < 0 then none
  else some (Real.sqrt (-0.5 * d ^ 2 / Real.log q))

/-- Smallest / largest `y` of a non-empty list of points `(r, y)` — gaussian.py:126-127. -/
noncomputable def minY (a : ℝ × ℝ) (t : List (ℝ × ℝ)) : ℝ := t.foldl (fun m q => Min.min m q.2) a.2
noncomputable def maxY (a : ℝ × ℝ) (t : List (ℝ × ℝ)) : ℝ := t.foldl (fun m q => Max.max m q.2) a.2

/-- Position estimate: mean of `r` weighted by `(y - min_y)²`, `none` if the weights sum to zero
— gaussian.py:130-131. -/
noncomputable def weightedPos? (use : List (ℝ × ℝ)) (lo : ℝ) : Option ℝ :=
  if (use.map (fun q => (q.2 - lo) ^ 2)).sum = 0 then none
  else some ((use.map (fun q => q.1 * (q.2 - lo) ^ 2)).sum / (use.map (fun q => (q.2 - lo) ^ 2)).sum)

/-- Sigma on one side, from the end point `e` of the usable data — gaussian.py:134-150, 151-167. -/
noncomputable def sigmaSide? (e a b : ℝ × ℝ) (pos lo hi : ℝ) : Option ℝ :=
  if e.2 < hi then sqrtLog? (e.1 - pos) (e.2 / hi)
  else sqrtLog? ((|a.1 - pos| + |b.1 - pos|) / 2) (lo / hi)

/-- Position and FWHM estimates — gaussian.py:129-175.  `a` and `b` are the first and last usable
points. -/
noncomputable def guessPW? (a : ℝ × ℝ) (t : List (ℝ × ℝ)) : Option (ℝ × ℝ) :=
  let b := t.getLastD a
  let lo := minY a t
  let hi := maxY a t
  if lo ≠ hi then
    match weightedPos? (a :: t) lo with
    | none => none
    | some pos =>
      match sigmaSide? a a b pos lo hi, sigmaSide? b a b pos lo hi with
      | some sl, some sr => some (pos, 0.5 * (sr + sl) * sigma2fwhm)
      | _, _ => none
  else some ((a.1 + b.1) / 2, (b.1 - a.1) * 2 / (2 * Real.log 2))

/-- `estimate_parameters(r, y)` — gaussian.py:90-188, gaussianoverr.py:90-188 (the two differ in the
factor `guesspars[0]` of the area).  `none`: a parameter is NaN or infinite.  Simplification: `r` and
`y` are one-dimensional float arrays. -/
noncomputable def estimate (s : Shape) (mw : ℝ) (r y : List ℝ) : Res (Option P) :=
  if r.length ≠ y.length then .error .estimation
  else
    let use := (r.zip y).filter (fun q => 0 < q.2)
    if use.length < 3 then .error .estimation
    else match use with
      | [] => .error .estimation
      | a :: t =>
        match guessPW? a t with
        | none => .ok none
        | some (pos, w) =>
          let hi := maxY a t
          let f : ℝ := match s with
            | .gaussian => 1
            | .overR => pos
          if w > mw then .ok (some ⟨pos, Real.pi / 2, c3 * hi * f * mw⟩)
          else .ok ((arcsin? (2 * w ^ 2 / mw ^ 2 - 1)).map (fun i => ⟨pos, i, c3 * hi * f * w⟩))

/-! ### Lemmas -/

theorem foldl_min_spec (t : List (ℝ × ℝ)) : ∀ x : ℝ,
    (t.foldl (fun m q => Min.min m q.2) x ≤ x ∧
      ∀ q ∈ t, t.foldl (fun m q => Min.min m q.2) x ≤ q.2) ∧
    (t.foldl (fun m q => Min.min m q.2) x = x ∨
      ∃ q ∈ t, t.foldl (fun m q => Min.min m q.2) x = q.2) := by
  induction t with
  | nil => intro x; simp
  | cons c t ih =>
    intro x
    obtain ⟨⟨h1, h2⟩, h3⟩ := ih (Min.min x c.2)
    simp only [List.foldl_cons]
    refine ⟨⟨h1.trans (min_le_left _ _), ?_⟩, ?_⟩
    · intro q hq
      rcases List.mem_cons.1 hq with rfl | hq
      · exact h1.trans (min_le_right _ _)
      · exact h2 q hq
    · rcases h3 with h3 | ⟨q, hq, h3⟩
      · rcases min_choice x c.2 with h | h
        · left; rw [h3, h]
        · right; exact ⟨c, List.mem_cons_self, by rw [h3, h]⟩
      · right; exact ⟨q, List.mem_cons_of_mem _ hq, h3⟩

theorem foldl_max_spec (t : List (ℝ × ℝ)) : ∀ x : ℝ,
    (x ≤ t.foldl (fun m q => Max.max m q.2) x ∧
      ∀ q ∈ t, q.2 ≤ t.foldl (fun m q => Max.max m q.2) x) ∧
    (t.foldl (fun m q => Max.max m q.2) x = x ∨
      ∃ q ∈ t, t.foldl (fun m q => Max.max m q.2) x = q.2) := by
  induction t with
  | nil => intro x; simp
  | cons c t ih =>
    intro x
    obtain ⟨⟨h1, h2⟩, h3⟩ := ih (Max.max x c.2)
    simp only [List.foldl_cons]
    refine ⟨⟨(le_max_left _ _).trans h1, ?_⟩, ?_⟩
    · intro q hq
      rcases List.mem_cons.1 hq with rfl | hq
      · exact (le_max_right _ _).trans h1
      · exact h2 q hq
    · rcases h3 with h3 | ⟨q, hq, h3⟩
      · rcases max_choice x c.2 with h | h
        · left; rw [h3, h]
        · right; exact ⟨c, List.mem_cons_self, by rw [h3, h]⟩
      · right; exact ⟨q, List.mem_cons_of_mem _ hq, h3⟩

theorem minY_spec (a : ℝ × ℝ) (t : List (ℝ × ℝ)) :
    (∀ q ∈ a :: t, minY a t ≤ q.2) ∧ ∃ q ∈ a :: t, minY a t = q.2 := by
  obtain ⟨⟨h1, h2⟩, h3⟩ := foldl_min_spec t a.2
  refine ⟨fun q hq => ?_, ?_⟩
  · rcases List.mem_cons.1 hq with rfl | hq
    · exact h1
    · exact h2 q hq
  · rcases h3 with h3 | ⟨q, hq, h3⟩
    · exact ⟨a, List.mem_cons_self, h3⟩
    · exact ⟨q, List.mem_cons_of_mem _ hq, h3⟩

theorem maxY_spec (a : ℝ × ℝ) (t : List (ℝ × ℝ)) :
    (∀ q ∈ a :: t, q.2 ≤ maxY a t) ∧ ∃ q ∈ a :: t, maxY a t = q.2 := by
  obtain ⟨⟨h1, h2⟩, h3⟩ := foldl_max_spec t a.2
  refine ⟨fun q hq => ?_, ?_⟩
  · rcases List.mem_cons.1 hq with rfl | hq
    · exact h1
    · exact h2 q hq
  · rcases h3 with h3 | ⟨q, hq, h3⟩
    · exact ⟨a, List.mem_cons_self, h3⟩
    · exact ⟨q, List.mem_cons_of_mem _ hq, h3⟩

/-- A sum of non-negative terms, one of them positive, is positive. -/
theorem sum_map_pos {α : Type} (l : List α) (f : α → ℝ) (h0 : ∀ x ∈ l, 0 ≤ f x)
    (h1 : ∃ x ∈ l, 0 < f x) : 0 < (l.map f).sum := by
  induction l with
  | nil => simp at h1
  | cons c l ih =>
    simp only [List.map_cons, List.sum_cons]
    have hc := h0 c List.mem_cons_self
    have hl : 0 ≤ (l.map f).sum := by
      apply List.sum_nonneg
      intro y hy
      obtain ⟨x, hx, rfl⟩ := List.mem_map.1 hy
      exact h0 x (List.mem_cons_of_mem _ hx)
    obtain ⟨x, hx, hpos⟩ := h1
    rcases List.mem_cons.1 hx with rfl | hx
    · linarith
    · have := ih (fun x hx => h0 x (List.mem_cons_of_mem _ hx)) ⟨x, hx, hpos⟩
      linarith

theorem sum_map_sub {α : Type} (l : List α) (f g : α → ℝ) :
    (l.map f).sum - (l.map g).sum = (l.map (fun x => f x - g x)).sum := by
  induction l with
  | nil => simp
  | cons c l ih => simp only [List.map_cons, List.sum_cons, ← ih]; ring

theorem sum_map_mul {α : Type} (l : List α) (c : ℝ) (g : α → ℝ) :
    c * (l.map g).sum = (l.map (fun x => c * g x)).sum := by
  induction l with
  | nil => simp
  | cons d l ih => simp only [List.map_cons, List.sum_cons, ← ih]; ring

theorem sqrtLog?_pos {d q : ℝ} (h0 : 0 < q) (h1 : q < 1) (hd : d ≠ 0) :
    ∃ s, sqrtLog? d q = some s ∧ 0 < s := by
  have hl : Real.log q < 0 := Real.log_neg h0 h1
  have hd2 : 0 < d ^ 2 := by positivity
  have hpos : 0 < -0.5 * d ^ 2 / Real.log q := by
    apply div_pos_of_neg_of_neg _ hl
    linarith
  refine ⟨Real.sqrt (-0.5 * d ^ 2 / Real.log q), ?_, Real.sqrt_pos.2 hpos⟩
  unfold sqrtLog?
  rw [if_neg (not_le.2 h0), if_neg hl.ne, if_neg (not_lt.2 hpos.le)]

/-- The end points of a strictly increasing list of at least two points. -/
theorem ends {a : ℝ × ℝ} {t : List (ℝ × ℝ)} (hs : (a :: t).Pairwise (fun p q => p.1 < q.1))
    (ht : t ≠ []) :
    t.getLastD a ∈ t ∧ a.1 < (t.getLastD a).1 ∧
      (∀ q ∈ a :: t, a.1 ≤ q.1 ∧ q.1 ≤ (t.getLastD a).1) ∧
      (∀ q ∈ a :: t, q ≠ a → a.1 < q.1) ∧ (∀ q ∈ a :: t, q ≠ t.getLastD a → q.1 < (t.getLastD a).1) := by
  have hlast : t.getLastD a = t.getLast ht := by
    rw [List.getLastD_eq_getLast?, List.getLast?_eq_some_getLast ht]; rfl
  have hmem : t.getLastD a ∈ t := by rw [hlast]; exact List.getLast_mem ht
  have hle : ∀ q ∈ t, q = t.getLast ht ∨ q.1 < (t.getLast ht).1 := by
    intro q hq
    have hp := (List.pairwise_cons.1 hs).2
    rw [← List.dropLast_append_getLast ht] at hp hq
    rcases List.mem_append.1 hq with h | h
    · right
      exact (List.pairwise_append.1 hp).2.2 q h _ (by simp)
    · left; simpa using h
  have ha : ∀ q ∈ t, a.1 < q.1 := (List.pairwise_cons.1 hs).1
  have hal : a.1 < (t.getLastD a).1 := ha _ hmem
  refine ⟨hmem, hal, ?_, ?_, ?_⟩
  · intro q hq
    rcases List.mem_cons.1 hq with rfl | hq
    · exact ⟨le_rfl, hal.le⟩
    · refine ⟨(ha q hq).le, ?_⟩
      rw [hlast]
      rcases hle q hq with h | h
      · rw [h]
      · exact h.le
  · intro q hq hne
    rcases List.mem_cons.1 hq with h | hq
    · exact absurd h hne
    · exact ha q hq
  · intro q hq hne
    rcases List.mem_cons.1 hq with h | hq
    · rw [h]; exact hal
    · rw [hlast] at hne ⊢
      rcases hle q hq with h | h
      · exact absurd h hne
      · exact h

theorem weightedPos?_spec {a : ℝ × ℝ} {t : List (ℝ × ℝ)}
    (hs : (a :: t).Pairwise (fun p q => p.1 < q.1)) (ht : t ≠ [])
    (hne : minY a t ≠ maxY a t) :
    ∃ pos, weightedPos? (a :: t) (minY a t) = some pos ∧ a.1 ≤ pos ∧ pos ≤ (t.getLastD a).1 ∧
      (a.2 < maxY a t → a.1 < pos) ∧ ((t.getLastD a).2 < maxY a t → pos < (t.getLastD a).1) := by
  obtain ⟨hmem, hab, hbd, hA, hB⟩ := ends hs ht
  obtain ⟨hlo, -⟩ := minY_spec a t
  obtain ⟨hhi, qM, hqM, hM⟩ := maxY_spec a t
  set lo := minY a t
  set hi := maxY a t
  set b := t.getLastD a
  have hlt : lo < hi := lt_of_le_of_ne (by rw [hM]; exact hlo qM hqM) hne
  have hWM : 0 < (qM.2 - lo) ^ 2 := by
    have : 0 < qM.2 - lo := by rw [← hM]; linarith
    positivity
  have hW : 0 < ((a :: t).map (fun q => (q.2 - lo) ^ 2)).sum :=
    sum_map_pos _ _ (fun _ _ => sq_nonneg _) ⟨qM, hqM, hWM⟩
  set W := ((a :: t).map (fun q => (q.2 - lo) ^ 2)).sum with hWdef
  set N := ((a :: t).map (fun q => q.1 * (q.2 - lo) ^ 2)).sum with hNdef
  have eL : N - a.1 * W = ((a :: t).map (fun q => (q.1 - a.1) * (q.2 - lo) ^ 2)).sum := by
    rw [hNdef, hWdef, sum_map_mul, sum_map_sub]
    congr 1
    apply List.map_congr_left
    intro q _; ring
  have eR : b.1 * W - N = ((a :: t).map (fun q => (b.1 - q.1) * (q.2 - lo) ^ 2)).sum := by
    rw [hNdef, hWdef, sum_map_mul, sum_map_sub]
    congr 1
    apply List.map_congr_left
    intro q _; ring
  have hLn : ∀ q ∈ a :: t, 0 ≤ (q.1 - a.1) * (q.2 - lo) ^ 2 := fun q hq =>
    mul_nonneg (by linarith [(hbd q hq).1]) (sq_nonneg _)
  have hRn : ∀ q ∈ a :: t, 0 ≤ (b.1 - q.1) * (q.2 - lo) ^ 2 := fun q hq =>
    mul_nonneg (by linarith [(hbd q hq).2]) (sq_nonneg _)
  have sumnn : ∀ f : ℝ × ℝ → ℝ, (∀ q ∈ a :: t, 0 ≤ f q) → 0 ≤ ((a :: t).map f).sum := by
    intro f hf
    apply List.sum_nonneg
    intro y hy
    obtain ⟨x, hx, rfl⟩ := List.mem_map.1 hy
    exact hf x hx
  refine ⟨N / W, ?_, ?_, ?_, ?_, ?_⟩
  · unfold weightedPos?
    rw [if_neg hW.ne']
  · rw [le_div_iff₀ hW]
    have := sumnn _ hLn
    linarith
  · rw [div_le_iff₀ hW]
    have := sumnn _ hRn
    linarith
  · intro h
    rw [lt_div_iff₀ hW]
    have := sum_map_pos _ _ hLn ⟨qM, hqM, by
      apply mul_pos _ hWM
      have : a.1 < qM.1 := hA qM hqM (by rintro rfl; linarith)
      linarith⟩
    linarith
  · intro h
    rw [div_lt_iff₀ hW]
    have := sum_map_pos _ _ hRn ⟨qM, hqM, by
      apply mul_pos _ hWM
      have : qM.1 < b.1 := hB qM hqM (by intro e; rw [e] at hM; linarith)
      linarith⟩
    linarith

theorem guessPW?_spec {a : ℝ × ℝ} {t : List (ℝ × ℝ)}
    (hs : (a :: t).Pairwise (fun p q => p.1 < q.1)) (ht : t ≠ []) (hp : ∀ q ∈ a :: t, 0 < q.2) :
    ∃ pos w, guessPW? a t = some (pos, w) ∧ a.1 ≤ pos ∧ pos ≤ (t.getLastD a).1 ∧ 0 < w := by
  obtain ⟨hmem, hab, hbd, hA, hB⟩ := ends hs ht
  have hs2 := sigma2fwhm_pos
  have hl2 := log2_pos
  unfold guessPW?
  simp only
  by_cases hne : minY a t = maxY a t
  · rw [if_neg (by simpa using hne)]
    refine ⟨_, _, rfl, by linarith, by linarith, ?_⟩
    have : 0 < (t.getLastD a).1 - a.1 := by linarith
    positivity
  · rw [if_pos hne]
    obtain ⟨pos, he, h1, h2, h3, h4⟩ := weightedPos?_spec hs ht hne
    rw [he]
    simp only
    obtain ⟨hlo, qm, hqm, hm⟩ := minY_spec a t
    obtain ⟨hhi, qM, hqM, hM⟩ := maxY_spec a t
    have hm0 : 0 < minY a t := by rw [hm]; exact hp qm hqm
    have hlt : minY a t < maxY a t := lt_of_le_of_ne (by rw [hM]; exact hlo qM hqM) hne
    have hM0 : 0 < maxY a t := hm0.trans hlt
    set b := t.getLastD a with hb
    have hbm : b ∈ a :: t := List.mem_cons_of_mem _ hmem
    have hmean : (|a.1 - pos| + |b.1 - pos|) / 2 ≠ 0 := by
      have h : 0 < |a.1 - pos| + |b.1 - pos| := by
        have h5 := abs_sub_comm a.1 pos
        have h6 := le_abs_self (pos - a.1)
        have h7 := le_abs_self (b.1 - pos)
        linarith
      positivity
    have side : ∀ e ∈ a :: t, (e.2 < maxY a t → e.1 - pos ≠ 0) →
        ∃ s, sigmaSide? e a b pos (minY a t) (maxY a t) = some s ∧ 0 < s := by
      intro e he hd
      unfold sigmaSide?
      by_cases hc : e.2 < maxY a t
      · rw [if_pos hc]
        exact sqrtLog?_pos (div_pos (hp e he) hM0) ((div_lt_one hM0).2 hc) (hd hc)
      · rw [if_neg hc]
        exact sqrtLog?_pos (div_pos hm0 hM0) ((div_lt_one hM0).2 hlt) hmean
    obtain ⟨sl, hsl, hsl0⟩ := side a List.mem_cons_self (fun h => by have := h3 h; linarith)
    obtain ⟨sr, hsr, hsr0⟩ := side b hbm (fun h => by have := h4 h; linarith)
    rw [hsl, hsr]
    refine ⟨_, _, rfl, h1, h2, ?_⟩
    have : 0 < 0.5 * (sr + sl) := by linarith
    positivity

theorem c3_gauss {w A : ℝ} (hw : 0 < w) (μ : ℝ) :
    gauss μ (w / sigma2fwhm) (c3 * A * w) μ = A := by
  have hs := sigma2fwhm_pos
  have hl := log2_pos
  have hpi := Real.pi_pos
  unfold gauss
  rw [sub_self]
  simp only [ne_eq, OfNat.ofNat_ne_zero, not_false_eq_true, zero_pow, neg_zero, zero_div, Real.exp_zero,
    mul_one]
  have hc : c3 * sigma2fwhm = Real.sqrt (2 * Real.pi) := by
    have h0 : 0 ≤ c3 * sigma2fwhm := by unfold c3; positivity
    have h1 : 0 ≤ Real.sqrt (2 * Real.pi) := by positivity
    apply (sq_eq_sq₀ h0 h1).1
    rw [mul_pow, sigma2fwhm_sq, Real.sq_sqrt (by positivity)]
    unfold c3
    rw [mul_pow, Real.sq_sqrt (by positivity)]
    field_simp
    norm_num
  rw [← hc]
  have hc3 : 0 < c3 := by unfold c3; positivity
  field_simp

theorem use_snd {r y : List ℝ} (h : r.length = y.length) :
    ((r.zip y).filter (fun q => 0 < q.2)).map Prod.snd = y.filter (fun v => 0 < v) := by
  induction r generalizing y with
  | nil => cases y with
    | nil => rfl
    | cons => simp at h
  | cons c r ih => cases y with
    | nil => simp at h
    | cons d y =>
      have ih' := ih (y := y) (by simpa using h)
      by_cases hd : 0 < d <;> simp [hd, ih']

theorem zip_pairwise {r y : List ℝ} (hr : r.Pairwise (· < ·)) :
    (r.zip y).Pairwise (fun p q => p.1 < q.1) := by
  induction r generalizing y with
  | nil => simp
  | cons c r ih => cases y with
    | nil => simp
    | cons d y =>
      rw [List.zip_cons_cons, List.pairwise_cons]
      rw [List.pairwise_cons] at hr
      refine ⟨?_, ih hr.2⟩
      rintro ⟨u, v⟩ huv
      exact hr.1 u (List.of_mem_zip huv).1

/-- **C55.** `estimate_parameters` on arrays `r` (strictly increasing), `y`: SrMiseEstimationError
exactly when the lengths differ or fewer than three values are positive; otherwise finite parameters,
with the position between two points of `r` whose `y` are positive, an internal width in the
principal range, a FWHM in `(0, maxwidth]`, and an area such that the peak's value at its position
is the largest `y` (for Gaussian/r, if the position is not 0). -/
theorem c55_estimate {mw : ℝ} (hmw : 0 < mw) (s : Shape) (r y : List ℝ)
    (hr : r.Pairwise (· < ·)) :
    (estimate s mw r y = .error .estimation ↔
      r.length ≠ y.length ∨ (y.filter (fun v => 0 < v)).length < 3) ∧
    (r.length = y.length → 3 ≤ (y.filter (fun v => 0 < v)).length →
      ∃ q, estimate s mw r y = .ok (some q) ∧
        (∃ i j : ℕ, ∃ ri rj yi yj, r[i]? = some ri ∧ y[i]? = some yi ∧ 0 < yi ∧
          r[j]? = some rj ∧ y[j]? = some yj ∧ 0 < yj ∧ ri ≤ q.pos ∧ q.pos ≤ rj) ∧
        -(Real.pi / 2) ≤ q.wid ∧ q.wid ≤ Real.pi / 2 ∧
        0 < fwhmOf mw q.wid ∧ fwhmOf mw q.wid ≤ mw ∧
        ((s = .overR → q.pos ≠ 0) → ∃ M, M ∈ y ∧ (∀ v ∈ y, v ≤ M) ∧ value s mw q q.pos = M)) := by
  have hpi := Real.pi_pos
  have hlen : r.length = y.length → ((r.zip y).filter (fun q => 0 < q.2)).length =
      (y.filter (fun v => 0 < v)).length := by
    intro h
    rw [← use_snd h, List.length_map]
  have main : r.length = y.length → 3 ≤ (y.filter (fun v => 0 < v)).length →
      ∃ q, estimate s mw r y = .ok (some q) ∧
        (∃ i j : ℕ, ∃ ri rj yi yj, r[i]? = some ri ∧ y[i]? = some yi ∧ 0 < yi ∧
          r[j]? = some rj ∧ y[j]? = some yj ∧ 0 < yj ∧ ri ≤ q.pos ∧ q.pos ≤ rj) ∧
        -(Real.pi / 2) ≤ q.wid ∧ q.wid ≤ Real.pi / 2 ∧
        0 < fwhmOf mw q.wid ∧ fwhmOf mw q.wid ≤ mw ∧
        ((s = .overR → q.pos ≠ 0) →
          ∃ M, M ∈ y ∧ (∀ v ∈ y, v ≤ M) ∧ value s mw q q.pos = M) := by
    intro h1 h2
    have h3 := hlen h1
    have hpw : ((r.zip y).filter (fun q => 0 < q.2)).Pairwise (fun p q => p.1 < q.1) :=
      (zip_pairwise hr).filter _
    have hpos : ∀ q ∈ (r.zip y).filter (fun q => 0 < q.2), 0 < q.2 := by
      intro q hq
      simpa using (List.mem_filter.1 hq).2
    have hsub : ∀ q ∈ (r.zip y).filter (fun q => 0 < q.2), q ∈ r.zip y := fun q hq =>
      (List.mem_filter.1 hq).1
    have hall : ∀ v ∈ y, 0 < v → ∃ q ∈ (r.zip y).filter (fun q => 0 < q.2), q.2 = v := by
      intro v hv h0
      have : v ∈ y.filter (fun v => 0 < v) := List.mem_filter.2 ⟨hv, by simpa using h0⟩
      rw [← use_snd h1] at this
      obtain ⟨q, hq, e⟩ := List.mem_map.1 this
      exact ⟨q, hq, e⟩
    unfold estimate
    rw [if_neg (by simpa using h1)]
    simp only
    rw [if_neg (by omega)]
    generalize hu : (r.zip y).filter (fun q => 0 < q.2) = use at *
    match use, hu with
    | [], _ => simp at h3; omega
    | [a], _ => simp at h3; omega
    | a :: b :: t', _ =>
      set t := b :: t' with ht
      have htne : t ≠ [] := by simp [ht]
      obtain ⟨pos, w, hg, hp1, hp2, hw⟩ := guessPW?_spec hpw htne hpos
      obtain ⟨hmemb, -⟩ := ends hpw htne
      obtain ⟨hhi, qM, hqM, hM⟩ := maxY_spec a t
      simp only [hg]
      have hM0 : 0 < maxY a t := by rw [hM]; exact hpos qM hqM
      have hbounds : ∃ i j : ℕ, ∃ ri rj yi yj, r[i]? = some ri ∧ y[i]? = some yi ∧ 0 < yi ∧
          r[j]? = some rj ∧ y[j]? = some yj ∧ 0 < yj ∧ ri ≤ pos ∧ pos ≤ rj := by
        have hidx : ∀ q ∈ r.zip y, ∃ i : ℕ, r[i]? = some q.1 ∧ y[i]? = some q.2 := by
          intro q hq
          obtain ⟨i, hi⟩ := List.mem_iff_getElem?.1 hq
          rw [List.getElem?_zip_eq_some] at hi
          exact ⟨i, hi⟩
        obtain ⟨i, hi1, hi2⟩ := hidx a (hsub a List.mem_cons_self)
        obtain ⟨j, hj1, hj2⟩ := hidx (t.getLastD a) (hsub _ (List.mem_cons_of_mem _ hmemb))
        exact ⟨i, j, _, _, _, _, hi1, hi2, hpos a List.mem_cons_self, hj1, hj2,
          hpos _ (List.mem_cons_of_mem _ hmemb), hp1, hp2⟩
      have hmax : maxY a t ∈ y ∧ ∀ v ∈ y, v ≤ maxY a t := by
        refine ⟨?_, ?_⟩
        · rw [hM]
          have := hsub qM hqM
          exact (List.of_mem_zip (show (qM.1, qM.2) ∈ r.zip y from this)).2
        · intro v hv
          by_cases h0 : 0 < v
          · obtain ⟨q, hq, e⟩ := hall v hv h0
            rw [← e]; exact hhi q hq
          · linarith
      -- the height, for any internal width denoting the FWHM `u` used in the area
      have height : ∀ (i u : ℝ), 0 < u → fwhmOf mw i = u → (s = .overR → pos ≠ 0) →
          value s mw ⟨pos, i, c3 * maxY a t * (match s with | .gaussian => 1 | .overR => pos) * u⟩ pos =
            maxY a t := by
        intro i u hu0 hf hov
        have hσ : sigmaOf mw i = u / sigma2fwhm := by unfold sigmaOf; rw [hf]
        have hc3 : 0 < c3 := by have := log2_pos; unfold c3; positivity
        cases s with
        | gaussian =>
          simp only
          rw [value_gaussian hmw, hσ, abs_of_pos (by positivity), mul_one]
          exact c3_gauss hu0 pos
        | overR =>
          simp only
          have hp := hov rfl
          rw [value_overR hmw, hσ, abs_mul, abs_mul, abs_of_pos (by positivity : 0 < c3 * maxY a t),
            abs_of_pos hu0]
          have := c3_gauss (A := maxY a t * |pos|) hu0 pos
          rw [show c3 * maxY a t * |pos| * u = c3 * (maxY a t * |pos|) * u by ring, this]
          have : |pos| ≠ 0 := abs_ne_zero.2 hp
          field_simp
      by_cases hc : w > mw
      · rw [if_pos hc]
        have hf : fwhmOf mw (Real.pi / 2) = mw :=
          (c32_fwhm_bounds hmw _).2.2.2 Real.sin_pi_div_two
        refine ⟨_, rfl, hbounds, by simp only; linarith, le_rfl, by simp only [hf]; exact hmw,
          by simp only [hf]; exact le_rfl, ?_⟩
        intro hov
        exact ⟨_, hmax.1, hmax.2, height _ _ hmw hf hov⟩
      · rw [if_neg hc]
        have hle : w ≤ mw := not_lt.1 hc
        have harg := arcsin_arg hmw (by linarith) hle
        have hf := fwhmOf_arcsin hmw hw.le hle
        have e : arcsin? (2 * w ^ 2 / mw ^ 2 - 1) = some (Real.arcsin (2 * w ^ 2 / mw ^ 2 - 1)) := by
          unfold arcsin?; rw [if_pos harg]
        rw [e]
        refine ⟨_, rfl, hbounds, Real.neg_pi_div_two_le_arcsin _, Real.arcsin_le_pi_div_two _,
          by simp only [hf]; exact hw, by simp only [hf]; exact hle, ?_⟩
        intro hov
        exact ⟨_, hmax.1, hmax.2, height _ _ hw hf hov⟩
  refine ⟨?_, main⟩
  constructor
  · intro h
    by_contra hc
    push Not at hc
    obtain ⟨q, hq, -⟩ := main hc.1 hc.2
    rw [hq] at h
    simp at h
  · intro h
    unfold estimate
    by_cases h1 : r.length ≠ y.length
    · rw [if_pos h1]
    · rw [if_neg h1]
      have h1' : r.length = y.length := by simpa using h1
      have h2 := h.resolve_left h1
      simp only
      rw [if_pos (by rw [hlen h1']; exact h2)]

/-- Instance: four points, three of them positive. -/
example : ∃ q, estimate .overR 2 [1, 2, 3, 4] [-1, 1, 2, 1] = .ok (some q) ∧
    fwhmOf 2 q.wid ≤ 2 := by
  have h := (c55_estimate (mw := 2) (by norm_num) .overR [1, 2, 3, 4] [-1, 1, 2, 1]
    (by simp; norm_num)).2 rfl (by simp)
  obtain ⟨q, h1, -, -, -, -, h5, -⟩ := h
  exact ⟨q, h1, h5⟩

end Verif.Peaks
