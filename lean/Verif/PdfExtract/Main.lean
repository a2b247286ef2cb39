import Verif.PdfExtract.Props
import Verif.Extract.Example

/-!
# C81: `PDFPeakExtraction.extract`, the theorems
-/

set_option linter.unusedSectionVars false

namespace Verif.Parts.PdfExtract

open Verif.Py Verif.Extraction Verif.Pdf Verif.Parts.Extract Verif.Parts.ModelCluster

/-- The functions of the code sample as assumed. -/
theorem realSampler_uniform (ripple : ℝ → Owner ℝ → Owner ℝ) (isRipple : Owner ℝ → Bool) :
    Uniform (realSampler ripple isRipple) where
  pi_pos := Real.pi_pos
  grid := by
    intro a b dr hdr
    refine ⟨⌈(b - a) / dr⌉₊, rfl, fun k => ?_⟩
    rw [Nat.lt_ceil, lt_div_iff₀ hdr]
    constructor <;> intro h <;> linarith
  zero := by intro a b; simp [realSampler, Pdf.arange]
  len := by
    intro x y r y' h
    unfold realSampler Pdf.resample at h
    simp only at h
    split at h
    · split at h
      · simp at h
      · simp only [Except.ok.injEq] at h; rw [← h]; simp
    · simp at h
  nonempty := by
    intro x y r y' h
    unfold realSampler Pdf.resample at h
    simp only at h
    split at h
    · simp
    · simp at h

variable {K : Type} [Field K] [LinearOrder K] [IsStrictOrderedRing K]
variable {W : World K} {S : Sampler K} {D : Defaults K}

/-- **C81.** `extract()` either raises, leaving no extracted model and no extraction type, or it leaves a model, of type
"extract", as `Outcome` says: for data resampled at the Nyquist interval (or finer if there were too few points), else
for the data in the range; with the baseline, the supplied functions, the initial peaks (all that are not removable)
and peaks of supplied functions, with termination ripples if qmax is positive. -/
theorem c81_extract (hS : Sane W) (hE : Estimates W) (hU : Uniform S) (hR : Ripples S) (n : ℕ) (o o' : PObj K)
    (u : Res Unit) (hN : o.heap.peaks D.noPeaks = []) (x y : List K) (hr : Ready o.vars.base x y)
    (hss : ∀ v, o.vars.supersample = some v → 0 < v) (h : extract W S D n o = some (u, o')) :
    (∀ e, u = .error e → o'.extracted = none ∧ o'.kind = none) ∧
    (u = .ok () → o'.kind = some .extract ∧ ∃ P eff c, From D o.vars P ∧ P.eff = .array eff ∧
      o'.extracted = some c ∧ Outcome W S o.heap P eff c) := by
  unfold extract at h
  split at h
  · simp only [Option.some.injEq, Prod.mk.injEq] at h
    obtain ⟨rfl, rfl⟩ := h
    exact ⟨fun _ _ => ⟨rfl, rfl⟩, fun h => by simp at h⟩
  · rename_i s hs
    rw [Option.map_eq_some_iff] at h
    obtain ⟨r, hc, h⟩ := h
    unfold leave at h
    split at h
    · simp only [Prod.mk.injEq] at h
      obtain ⟨rfl, rfl⟩ := h
      exact ⟨fun _ _ => ⟨rfl, rfl⟩, fun h => by simp at h⟩
    · rename_i c
      simp only [Prod.mk.injEq] at h
      obtain ⟨rfl, rfl⟩ := h
      refine ⟨fun e he => by simp at he, fun _ => ⟨rfl, ?_⟩⟩
      obtain ⟨P, hP⟩ : ∃ P, complete s = .ok P := by
        unfold extracted begun at hc
        cases hP : complete s with
        | error e => rw [hP] at hc; simp [bind, Except.bind] at hc
        | ok P => exact ⟨P, rfl⟩
      have hP := complete_ok hP
      obtain ⟨hfrom, hx, hy, hl⟩ := from_of hr hs hP
      have he : SettledEff P.eff := by rw [← hP.eff]; exact pdefault_settled hs
      have hss' : 0 < P.ss := by
        rw [hfrom.ss]
        cases hv : o.vars.supersample with
        | none => simp
        | some v => exact hss v hv
      obtain ⟨eff, e1, e2⟩ := extracted_ok hS hE hU hR hN hP he hss' (by rw [hx]; exact hr.inc)
        (by rw [hx, hy]; exact hr.leny) (by rw [hx]; exact hl) hc
      exact ⟨P, eff, c, hfrom, e1, rfl, e2⟩

/-! ### Enough points -/

theorem mem_inRange {x : List K} {a b v : K} (h : v ∈ inRange x a b x) : v ∈ x ∧ a ≤ v ∧ v ≤ b := by
  unfold inRange at h
  obtain ⟨p, hp, rfl⟩ := List.mem_map.1 h
  obtain ⟨h1, h2⟩ := List.mem_filter.1 hp
  have : ∀ (l : List K), ∀ p ∈ l.zip l, p.1 = p.2 := by
    intro l
    induction l with
    | nil => simp
    | cons c l ih =>
      intro p hp
      rcases List.mem_cons.1 hp with rfl | hp
      · rfl
      · exact ih p hp
  have e := this x p h1
  simp only [decide_eq_true_eq] at h2
  rw [e] at h2
  exact ⟨(List.of_mem_zip h1).2, h2⟩

theorem ends_le {x : List K} {x0 x1 v : K} (hinc : x.Pairwise (· < ·)) (h0 : x.head? = some x0)
    (h1 : x.getLast? = some x1) (hv : v ∈ x) : x0 ≤ v ∧ v ≤ x1 := by
  have h := inRange_all hinc h0 h1 (l := x) rfl
  rw [← h] at hv
  exact (mem_inRange hv).2

/-- The first grid lies in the range and between the ends of the data. -/
theorem firstData_mem (hU : Uniform S) {P : Par K} {eff r y e : List K} (hinc : P.x.Pairwise (· < ·))
    (h0 : P.x.head? = some P.x0) (h1 : P.x.getLast? = some P.x1) (hss : 0 < P.ss) (hq : 0 < P.q)
    (h : FirstData S P eff r y e) : ∀ v ∈ r, max P.x0 P.a ≤ v ∧ v ≤ min P.x1 P.b := by
  have hsel : ∀ f, Selected P eff f r y e → ∀ v ∈ r, max P.x0 P.a ≤ v ∧ v ≤ min P.x1 P.b := by
    intro f hs v hv
    rw [hs.grid] at hv
    obtain ⟨k1, k2, k3⟩ := mem_inRange hv
    obtain ⟨k4, k5⟩ := ends_le hinc h0 h1 k1
    exact ⟨max_le k4 k2, le_min k5 k3⟩
  unfold FirstData at h
  split at h
  · exact hsel _ h
  · split at h
    · intro v hv
      have hny : 0 < drNyquist S P := by
        unfold drNyquist; rw [if_pos hq]; exact div_pos hU.pi_pos hq
      have hdr : 0 < drNyquist S P / P.ss := div_pos hny hss
      obtain ⟨N, e1, e2⟩ := hU.grid (max P.x0 P.a) (min P.x1 P.b) _ hdr
      rw [h.grid, e1] at hv
      obtain ⟨k, hk, rfl⟩ := List.mem_map.1 hv
      refine ⟨?_, ((e2 k).1 (List.mem_range.1 hk)).le⟩
      have : 0 ≤ (k : K) * (drNyquist S P / P.ss) := mul_nonneg (Nat.cast_nonneg k) hdr.le
      linarith
    · exact hsel _ h

/-- The final data have more than `k` points. -/
theorem finalData_points (hU : Uniform S) {P : Par K} {eff r y e : List K} (hinc : P.x.Pairwise (· < ·))
    (h0 : P.x.head? = some P.x0) (h1 : P.x.getLast? = some P.x1) (hss : 0 < P.ss) (hq : 0 < P.q)
    (hn : P.nyquist = true) {k : ℕ} (h : FinalData S P eff k r y e) : k < r.length := by
  unfold FinalData at h
  rw [if_pos ⟨hq, hn⟩] at h
  obtain ⟨r1, y1, e1, a, b, hfd, ha, hb, hs⟩ := h
  have hmem := firstData_mem hU hinc h0 h1 hss hq hfd
  have hA := hmem a (List.mem_of_head? ha)
  have hB := hmem b (List.mem_of_getLast? hb)
  have hny : 0 < S.pi / P.q := div_pos hU.pi_pos hq
  have hne : r ≠ [] := hU.nonempty _ _ _ _ hs.values
  have hr := hs.grid
  -- the extent is positive
  have hcore : ∀ dr : K, 0 < dr → (k : K) * dr < b - a → r = S.arange (max P.x0 P.a) (min P.x1 P.b) dr → k < r.length := by
    intro dr hdr hlt hg
    obtain ⟨N, g1, g2⟩ := hU.grid (max P.x0 P.a) (min P.x1 P.b) dr hdr
    rw [hg, g1, List.length_map, List.length_range, g2]
    linarith [hA.1, hB.2]
  by_cases hc : (b - a) / (S.pi / P.q) ≤ k
  · rw [if_pos hc] at hr
    have hz : ∀ z : K, z = 0 → r = S.arange (max P.x0 P.a) (min P.x1 P.b) z → False := by
      intro z hz hg
      rw [hz, hU.zero] at hg
      exact hne hg
    by_cases hk : k = 0
    · exact (hz _ (by rw [hk]; simp) hr).elim
    have hk' : (0 : K) < k := by exact_mod_cast Nat.pos_of_ne_zero hk
    have hw : b - a ≠ 0 := fun h => hz _ (by rw [h]; simp) hr
    have hab : a ≤ b := by
      have hp : r1.Pairwise (· < ·) := by
        unfold FirstData at hfd
        split at hfd
        · rw [hfd.grid]; exact List.Pairwise.sublist (inRange_sublist _ _ _ _) hinc
        · split at hfd
          · rw [hfd.grid]
            refine hU.inc _ _ _ (div_pos ?_ hss)
            unfold drNyquist; rw [if_pos hq]; exact hny
          · rw [hfd.grid]; exact List.Pairwise.sublist (inRange_sublist _ _ _ _) hinc
      exact (ends_le hp ha hb (List.mem_of_head? ha)).2
    have hpos : 0 < b - a := lt_of_le_of_ne (sub_nonneg.2 hab) (Ne.symm hw)
    refine hcore _ (by positivity) ?_ hr
    have : (k : K) * (9999 / 10000 * (b - a) / k) = 9999 / 10000 * (b - a) := by field_simp
    rw [this]
    linarith
  · rw [if_neg hc] at hr
    refine hcore _ hny ?_ hr
    rw [not_le, lt_div_iff₀ hny] at hc
    exact hc

/-- **C81.** With Nyquist sampling the extracted model is overdetermined: the data have more points than the model and
the baseline have free parameters (unless the model is a single peak without ripples, see `c81_empty_model`). -/
theorem c81_overdetermined (hS : Sane W) (hE : Estimates W) (hU : Uniform S) (hR : Ripples S) (n : ℕ) (o o' : PObj K)
    (hN : o.heap.peaks D.noPeaks = []) (x y : List K) (hr : Ready o.vars.base x y)
    (hss : ∀ v, o.vars.supersample = some v → 0 < v) (h : extract W S D n o = some (.ok (), o'))
    (hq : 0 < preferredQmax o.vars) (hn : o.vars.nyquist ≠ some false) :
    ∃ c, o'.extracted = some c ∧ (freePars c < c.r.length ∨ ∃ P, From D o.vars P ∧ Single W o.heap P c.model) := by
  obtain ⟨-, P, eff, c, hfrom, he, hc, hout⟩ := (c81_extract hS hE hU hR n o o' _ hN x y hr hss h).2 rfl
  refine ⟨c, hc, ?_⟩
  obtain ⟨k, hfin, hk⟩ := hout.data
  rcases hk with hk | hk
  · left
    refine lt_of_le_of_lt hk (finalData_points hU ?_ hfrom.first hfrom.last ?_ (by rw [hfrom.q]; exact hq) ?_ hfin)
    · have hx := hfrom.x
      rw [hr.hasx, Option.some.injEq] at hx
      rw [← hx]; exact hr.inc
    · rw [hfrom.ss]
      cases hv : o.vars.supersample with
      | none => simp
      | some v => exact hss v hv
    · rw [hfrom.nyquist, hfrom.q]
      cases hv : o.vars.nyquist with
      | none => simp [hq]
      | some v =>
        cases v with
        | true => rfl
        | false => exact absurd hv hn
  · exact Or.inr ⟨P, hfrom, hk⟩

/-! ### The loop ends -/

theorem kept_refl (m : List (Part K)) : Kept m m := ⟨List.Subperm.refl _, List.Perm.refl _⟩

/-- The number of passes is at most one more than the number of free parameters. -/
theorem passes_end (hS : Sane W) (hE : Estimates W) {H : Heap K} {t : PPX K} {P : Par K} (hP : Has t P)
    (he : SettledEff P.eff) {bl : Option (Part K)} {w : K}
    (hb : ∀ c : Cluster K, c.baseline = bl → c.model = [] → (freePars c : K) < w / drNyquist S P) :
    ∀ (f : ℕ) (c : Cluster K), freePars c ≤ f → c.baseline = bl → ∀ n, f + 1 ≤ n →
      ∃ r, nyquistPasses W H S D t P bl w n c = some r ∧ nyquistPasses W H S D t P bl w (f + 1) c = some r := by
  intro f
  induction f with
  | zero =>
    intro c hc hbl n hn
    obtain ⟨n', rfl⟩ : ∃ n', n = n' + 1 := ⟨n - 1, by omega⟩
    simp only [nyquistPasses]
    cases hp : pass W H S D t P bl (interval w (drNyquist S P) (freePars c)) c with
    | error e => exact ⟨_, rfl, rfl⟩
    | ok d =>
      simp only
      by_cases h1 : interval w (drNyquist S P) (freePars c) = drNyquist S P
      · rw [if_pos h1, if_pos h1]; exact ⟨_, rfl, rfl⟩
      rw [if_neg h1, if_neg h1]
      have hne : c.model ≠ [] := by
        intro h0
        refine h1 ?_
        unfold interval
        rw [if_neg (not_le.2 (hb c hbl h0))]
      obtain ⟨-, -, -, -, hk⟩ := pass_ok (M := c.model) hS hE hP he (Or.inl (kept_refl _)) hbl hp
      have hle := hk hne
      rw [if_pos (by omega), if_pos (by omega)]
      exact ⟨_, rfl, rfl⟩
  | succ f ih =>
    intro c hc hbl n hn
    obtain ⟨n', rfl⟩ : ∃ n', n = n' + 1 := ⟨n - 1, by omega⟩
    rw [nyquistPasses, nyquistPasses]
    cases hp : pass W H S D t P bl (interval w (drNyquist S P) (freePars c)) c with
    | error e => exact ⟨_, rfl, rfl⟩
    | ok d =>
      simp only
      by_cases h1 : interval w (drNyquist S P) (freePars c) = drNyquist S P
      · rw [if_pos h1, if_pos h1]; exact ⟨_, rfl, rfl⟩
      rw [if_neg h1, if_neg h1]
      have hne : c.model ≠ [] := by
        intro h0
        refine h1 ?_
        unfold interval
        rw [if_neg (not_le.2 (hb c hbl h0))]
      obtain ⟨g, -, hst, -, hk⟩ := pass_ok (M := c.model) hS hE hP he (Or.inl (kept_refl _)) hbl hp
      have hle := hk hne
      by_cases h2 : freePars d = freePars c
      · rw [if_pos h2, if_pos h2]; exact ⟨_, rfl, rfl⟩
      rw [if_neg h2, if_neg h2]
      exact ih d (by omega) hst.base n' (by omega)

/-- **C81.** `extract()` ends, whatever the numerics, if the first grid has room for more Nyquist intervals than the
baseline has free parameters: there is a number of resamplings that is never exceeded. -/
theorem c81_terminates (hS : Sane W) (hE : Estimates W) (hU : Uniform S) (o : PObj K)
    (hN : o.heap.peaks D.noPeaks = []) (x y : List K) (hr : Ready o.vars.base x y)
    (hss : ∀ v, o.vars.supersample = some v → 0 < v)
    (hb : ∀ P eff r y e a b, From D o.vars P → 0 < P.q → P.nyquist = true → FirstData S P eff r y e → r.head? = some a → r.getLast? = some b →
      ((o.heap.base P.bl).npars false : K) < (b - a) / (S.pi / P.q)) :
    ∃ N res, ∀ n, N ≤ n → extract W S D n o = some res := by
  cases hd : pdefaultvars S.pi D o.vars with
  | mk u s =>
  cases u with
  | error e => exact ⟨0, _, fun n _ => by unfold extract; rw [hd]⟩
  | ok u =>
  suffices h : ∃ N res, ∀ n, N ≤ n → extracted W o.heap S D s n = some res by
    obtain ⟨N, res, h⟩ := h
    exact ⟨N, leave s o.heap res, fun n hn => by unfold extract; rw [hd]; simp only; rw [h n hn]; rfl⟩
  cases hbg : begun W o.heap S D s with
  | error e => exact ⟨0, _, fun n _ => by unfold extracted; rw [hbg]⟩
  | ok v =>
  obtain ⟨P', g, c⟩ := v
  obtain ⟨P, hP⟩ : ∃ P, complete s = .ok P := by
    unfold begun at hbg
    cases hP : complete s with
    | error e => rw [hP] at hbg; simp [bind, Except.bind] at hbg
    | ok P => exact ⟨P, rfl⟩
  have hP := complete_ok hP
  obtain ⟨rfl, ti, k2, k3, k4⟩ := begun_steps hP hbg
  suffices h : ∃ N res, ∀ n, N ≤ n → refine W o.heap S D s P' n g c = some res by
    obtain ⟨N, res, h⟩ := h
    exact ⟨N, finished W res, fun n hn => by unfold extracted; rw [hbg]; simp only; rw [h n hn]; rfl⟩
  obtain ⟨hfrom, hx, hy, hl⟩ := from_of hr hd hP
  have he : SettledEff P'.eff := by rw [← hP.eff]; exact pdefault_settled hd
  have hss' : 0 < P'.ss := by
    rw [hfrom.ss]
    cases hv : o.vars.supersample with
    | none => simp
    | some v => exact hss v hv
  obtain ⟨eff, heff, hfd, hdata⟩ := firstGrid_ok hU hP he hss' (by rw [hx]; exact hr.inc)
    (by rw [hx, hy]; exact hr.leny) (by rw [hx]; exact hl) k2
  have hf := initial_found hS hE hN (innerVars_ok k3) hdata k4
  simp only [decide_true] at hf
  obtain ⟨⟨b0, hb0, hb0'⟩, -⟩ := found_stage hf
  unfold refine
  by_cases hq : 0 < P'.q
  · simp only [if_pos hq]
    by_cases hn : P'.nyquist = true
    · simp only [if_pos hn]
      cases hw : widthOf g with
      | error e => exact ⟨0, _, fun n _ => rfl⟩
      | ok w =>
        simp only
        obtain ⟨a, b, ha, hb', rfl⟩ := widthOf_ok hw
        have hbase : ∀ c' : Cluster K, c'.baseline = c.baseline → c'.model = [] →
            (freePars c' : K) < (b - a) / drNyquist S P' := by
          intro c' h1 h2
          have := hb P' eff _ _ _ a b hfrom hq hn hfd ha hb'
          have hny : drNyquist S P' = S.pi / P'.q := by unfold drNyquist; rw [if_pos hq]
          rw [hny]
          have e : freePars c' = (o.heap.base P'.bl).npars false := by
            unfold freePars
            rw [h1, h2, hb0]
            unfold Parts.npars Part.npars
            simp [hb0'.2.1]
          rw [e]; exact this
        have := passes_end (H := o.heap) (D := D) hS hE hP he hbase (freePars { c with model := c.model.map (wrap S P'.q) })
          { c with model := c.model.map (wrap S P'.q) } le_rfl rfl
        obtain ⟨r, hr1, -⟩ := this _ le_rfl
        refine ⟨freePars { c with model := c.model.map (wrap S P'.q) } + 1, r, fun n hn => ?_⟩
        obtain ⟨r', h1, h2⟩ := this n hn
        rw [h1, ← hr1, h2]
    · simp only [if_neg hn]
      exact ⟨0, _, fun n _ => rfl⟩
  · simp only [if_neg hq]
    exact ⟨0, _, fun n _ => rfl⟩

end Verif.Parts.PdfExtract
