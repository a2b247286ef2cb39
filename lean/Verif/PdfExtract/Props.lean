import Verif.PdfExtract.Lemmas

/-!
# C81: what `PDFPeakExtraction.extract` returns
-/

set_option linter.unusedSectionVars false
set_option linter.unnecessarySeqFocus false

namespace Verif.Parts.PdfExtract

open Verif.Py Verif.Extraction Verif.Pdf Verif.Parts.Extract Verif.Parts.ModelCluster

variable {K : Type} [Field K] [LinearOrder K] [IsStrictOrderedRing K]

/-! ### Specification -/

/-- The variables `P` in use are the ones the user set in `s`, else their defaults. -/
structure From (D : Defaults K) (s : PPX K) (P : Par K) : Prop where
  x : s.base.x = some P.x
  y : s.base.y = some P.y
  first : P.x.head? = some P.x0
  last : P.x.getLast? = some P.x1
  range : (P.a, P.b) = rangeOf s.base P.x0 P.x1
  eff : ∀ e, s.base.effdy = .array e → P.eff = .array e
  eff1 : ∀ v, s.base.effdy = .scalar v → P.eff = if 0 < v then .array (P.x.map (fun _ => v)) else .scalar v
  eff0 : ∀ dy, s.base.effdy = .unset → s.base.dy = some dy → (∀ v ∈ dy, 0 < v) → P.eff = .array dy
  eff5 : ∀ dy, s.base.effdy = .unset → s.base.dy = some dy → (∃ v ∈ dy, v ≤ 0) → ∃ lo hi, lo ∈ P.y ∧ hi ∈ P.y ∧
    (∀ v ∈ P.y, lo ≤ v ∧ v ≤ hi) ∧ P.eff = .array (P.x.map (fun _ => 5 / 100 * (hi - lo)))
  q : P.q = preferredQmax s
  nyquist : P.nyquist = s.nyquist.getD (decide (0 < P.q))
  scale : P.scale = s.scale.getD false
  ss : P.ss = s.supersample.getD 4
  em : P.em = s.base.errorMethod.getD D.aic
  ip : P.ip = s.base.initialPeaks.getD D.noPeaks
  pf : P.pf = s.base.pf.getD (D.gaussianOverR (7 / 10))
  bl : ∀ b, s.base.baseline = some (.inst b) → P.bl = b
  bl0 : s.base.baseline = none → P.bl = D.zeroBaseline

/-- The data of the first search, by qmax: the data themselves if qmax is 0 or if they are sampled finely enough
(then with scaled uncertainties); else resampled at the supersampled Nyquist interval. -/
def FirstData (S : Sampler K) (P : Par K) (eff r y e : List K) : Prop :=
  if P.q = 0 then Selected P eff 1 r y e
  else if drNyquist S P / drRaw P < P.ss then Sampled S P eff (drNyquist S P / P.ss) r y e
  else Selected P eff (S.errorscale P.q P.nyquist P.scale (drRaw P)) r y e

/-- The data of the result for `k` free parameters: without Nyquist sampling those of the first search; with it, the
data resampled at the Nyquist interval or, if that would give no more points than free parameters, at the interval that
gives just more (the extent is that of the first grid). -/
def FinalData (S : Sampler K) (P : Par K) (eff : List K) (k : ℕ) (r y e : List K) : Prop :=
  if 0 < P.q ∧ P.nyquist = true then ∃ r1 y1 e1 a b, FirstData S P eff r1 y1 e1 ∧ r1.head? = some a ∧
      r1.getLast? = some b ∧
      Sampled S P eff (if (b - a) / (S.pi / P.q) ≤ k then 9999 / 10000 * (b - a) / k else S.pi / P.q) r y e
  else FirstData S P eff r y e

/-- A peak of one of the supplied functions, removable, of which all parameters are free and the function may be changed; it has the
values that the function needs. -/
def IsSupplied (W : World K) (H : Heap K) (P : Par K) (p : Part K) : Prop :=
  (∃ f ∈ H.funcs P.pf, p.owner = W.func f) ∧ p.removable = true ∧ p.staticOwner = false ∧ p.free = List.replicate p.owner.npars true ∧ Shaped p

/-- The model is a single peak of a supplied function, without ripples. -/
def Single (W : World K) (H : Heap K) (P : Par K) (m : List (Part K)) : Prop := ∃ p, IsSupplied W H P p ∧ m.map key = [key p]

/-- Ripples are added if qmax is positive. -/
def ripplesIf (S : Sampler K) (q : K) (p : Part K) : Part K := if 0 < q then withRipples S q p else p

/-- The extracted cluster, by the user's data and variables. -/
structure Outcome (W : World K) (S : Sampler K) (H : Heap K) (P : Par K) (eff : List K) (c : Cluster K) : Prop where
  data : ∃ k, FinalData S P eff k c.r c.y c.err ∧ (freePars c ≤ k ∨ Single W H P c.model)
  whole : ∃ sl, c.slice = some sl ∧ sl.get c.r = c.r
  method : c.method = P.em
  funcs : ∀ f ∈ c.funcs, f ∈ H.funcs P.pf
  base : ∃ b, c.baseline = some b ∧ SamePeak b (H.base P.bl)
  peaks : (∃ m : List (Part K), (∀ p ∈ m, IsSupplied W H P p) ∧
      (c.model.map key).Subperm (((H.peaks P.ip ++ m).map (ripplesIf S P.q)).map key)) ∨
    Single W H P c.model
  hard : ((c.model.filter (fun p => !p.removable)).map key).Perm
    ((((H.peaks P.ip).filter (fun p => !p.removable)).map (ripplesIf S P.q)).map key)

/-! ### Lemmas -/

theorem defEffdy_cres (s : PX K) (v : Option K) :
    defEffdy { s with cres := v } = ((defEffdy s).1, { (defEffdy s).2 with cres := v }) := by
  obtain ⟨tx, ty, tdx, tdy, teff, trng, tpf, tip, tbl, tcr, tem⟩ := s
  unfold defEffdy
  cases teff <;> cases tx <;> cases ty <;> cases tdy <;> simp only <;> (try split) <;> (try rfl) <;> (try split) <;> rfl

theorem eff_of {D : Defaults K} {s t : PX K} (h : defaultvars D s = (.ok (), t)) : t.effdy = (defEffdy s).2.effdy := by
  unfold defaultvars at h
  obtain ⟨s5, h, k6⟩ := andThen_ok h
  obtain ⟨s4, h, k5⟩ := andThen_ok h
  obtain ⟨s3, h, k4⟩ := andThen_ok h
  obtain ⟨s2, h, k3⟩ := andThen_ok h
  obtain ⟨s1, k1, k2⟩ := andThen_ok h
  obtain ⟨v1, rfl, -⟩ := defCres_frame k1
  obtain ⟨v3, rfl, -⟩ := defPf_frame k3
  obtain ⟨v4, rfl, -⟩ := defRng_frame k4
  obtain ⟨v5, rfl, -⟩ := defBaseline_frame k5
  simp only [Prod.mk.injEq, true_and] at k6
  rw [← k6]
  rw [defEffdy_cres] at k2
  simp only [Prod.mk.injEq] at k2
  rw [← k2.2]
  rfl

theorem eff_ok {D : Defaults K} {s t : PX K} (h : defaultvars D s = (.ok (), t)) : (defEffdy s).1 = .ok () := by
  unfold defaultvars at h
  obtain ⟨s5, h, k6⟩ := andThen_ok h
  obtain ⟨s4, h, k5⟩ := andThen_ok h
  obtain ⟨s3, h, k4⟩ := andThen_ok h
  obtain ⟨s2, h, k3⟩ := andThen_ok h
  obtain ⟨s1, k1, k2⟩ := andThen_ok h
  obtain ⟨v1, rfl, -⟩ := defCres_frame k1
  rw [defEffdy_cres] at k2
  simp only [Prod.mk.injEq] at k2
  exact k2.1

theorem foldl_max {l : List K} {a : K} : (l.foldl max a = a ∨ l.foldl max a ∈ l) ∧ a ≤ l.foldl max a ∧ ∀ v ∈ l, v ≤ l.foldl max a := by
  induction l generalizing a with
  | nil => simp
  | cons b l ih =>
    obtain ⟨h1, h2, h3⟩ := ih (a := max a b)
    simp only [List.foldl_cons, List.mem_cons]
    refine ⟨?_, (le_max_left a b).trans h2, ?_⟩
    · rcases h1 with h1 | h1
      · rw [h1]
        rcases max_choice a b with h | h
        · exact Or.inl h
        · exact Or.inr (Or.inl h)
      · exact Or.inr (Or.inr h1)
    · rintro v (rfl | hv)
      · exact (le_max_right a v).trans h2
      · exact h3 v hv

theorem foldl_min {l : List K} {a : K} : (l.foldl min a = a ∨ l.foldl min a ∈ l) ∧ l.foldl min a ≤ a ∧ ∀ v ∈ l, l.foldl min a ≤ v := by
  induction l generalizing a with
  | nil => simp
  | cons b l ih =>
    obtain ⟨h1, h2, h3⟩ := ih (a := min a b)
    simp only [List.foldl_cons, List.mem_cons]
    refine ⟨?_, h2.trans (min_le_left a b), ?_⟩
    · rcases h1 with h1 | h1
      · rw [h1]
        rcases min_choice a b with h | h
        · exact Or.inl h
        · exact Or.inr (Or.inl h)
      · exact Or.inr (Or.inr h1)
    · rintro v (rfl | hv)
      · exact h2.trans (min_le_right a v)
      · exact h3 v hv

/-- The difference of the extrema. -/
theorem spread_ok {l : List K} {w : K} (h : spread l = .ok w) :
    ∃ lo hi, lo ∈ l ∧ hi ∈ l ∧ (∀ v ∈ l, lo ≤ v ∧ v ≤ hi) ∧ w = hi - lo := by
  cases l with
  | nil => simp [spread] at h
  | cons a l =>
    simp only [spread, Except.ok.injEq] at h
    obtain ⟨a1, a2, a3⟩ := foldl_max (l := l) (a := a)
    obtain ⟨b1, b2, b3⟩ := foldl_min (l := l) (a := a)
    refine ⟨l.foldl min a, l.foldl max a, ?_, ?_, ?_, h.symm⟩
    · rcases b1 with h | h
      · rw [h]; simp
      · exact List.mem_cons_of_mem _ h
    · rcases a1 with h | h
      · rw [h]; simp
      · exact List.mem_cons_of_mem _ h
    · intro v hv
      rcases List.mem_cons.1 hv with rfl | hv
      · exact ⟨b2, a2⟩
      · exact ⟨b3 v hv, a3 v hv⟩

theorem from_of {pi : K} {D : Defaults K} {s t : PPX K} {P : Par K} {x y : List K} (hr : Ready s.base x y)
    (h : pdefaultvars pi D s = (.ok (), t)) (hP : Has t P) :
    From D s P ∧ P.x = x ∧ P.y = y ∧ (∀ e, P.eff = .array e → e.length = x.length) := by
  obtain ⟨h1, h2, h3, h4, h5⟩ := pdefault_ok h
  have hd := defaulted h5
  have hq : chooseQmax s = preferredQmax s := by
    unfold preferredQmax chooseQmax
    cases s.qmax <;> cases s.qmaxReported <;> cases s.qmaxFromData <;> rfl
  have hx : P.x = x := by
    have := hd.x
    simp only at this
    rw [hP.x, hr.hasx, Option.some.injEq] at this
    exact this
  have hy : P.y = y := by
    have := hd.y
    simp only at this
    rw [hP.y, hr.hasy, Option.some.injEq] at this
    exact this
  have eq : P.q = preferredQmax s := by rw [hP.q, Option.some.injEq] at h1; rw [h1, hq]
  refine ⟨⟨by rw [hx]; exact hr.hasx, by rw [hy]; exact hr.hasy, hP.first, hP.last, ?_, ?_, ?_, ?_, ?_, eq, ?_, ?_, ?_, ?_, ?_, ?_, ?_, ?_⟩,
    hx, hy, ?_⟩
  · have hf := hP.first
    have hl := hP.last
    rw [hx] at hf hl
    have := hd.rng x P.x0 P.x1 hr.hasx hf hl
    rw [hP.rng] at this
    simp only [Option.some.injEq, Prod.mk.injEq] at this
    exact Prod.ext this.1 this.2
  · intro e he
    have := eff_of h5
    unfold defEffdy at this
    simp only [he] at this
    rw [← hP.eff]; exact this
  · intro v hv
    have := eff_of h5
    unfold defEffdy at this
    simp only [hv, hr.hasx] at this
    rw [← hP.eff, this, hx]
    split <;> simp_all
  · intro dy hu hdy hall
    have := eff_of h5
    unfold defEffdy at this
    simp only [hu, hr.hasx, hr.hasy, hdy] at this
    rw [if_pos (by simpa using hall)] at this
    rw [← hP.eff]; exact this
  · intro dy hu hdy hex
    have h6 := eff_of h5
    have h7 := eff_ok h5
    unfold defEffdy at h6 h7
    simp only [hu, hr.hasx, hr.hasy, hdy] at h6 h7
    have hc : ¬ (dy.all (fun v => decide (0 < v)) = true) := by
      obtain ⟨v, hv, hle⟩ := hex
      simp only [List.all_eq_true, decide_eq_true_eq]
      intro hh
      exact absurd (hh v hv) (not_lt.2 hle)
    rw [if_neg hc] at h6 h7
    cases hsp : spread y with
    | error e => rw [hsp] at h7; simp at h7
    | ok w =>
      rw [hsp] at h6
      simp only at h6
      obtain ⟨lo, hi, k1, k2, k3, k4⟩ := spread_ok hsp
      refine ⟨lo, hi, by rw [hy]; exact k1, by rw [hy]; exact k2, by rw [hy]; exact k3, ?_⟩
      rw [← hP.eff, h6, hx, k4]
  · rw [hP.nyquist, Option.some.injEq] at h2; rw [h2, hq, eq]
  · rw [hP.scale, Option.some.injEq] at h3; exact h3
  · rw [hP.ss, Option.some.injEq] at h4; exact h4
  · have := hd.em
    rw [hP.em, Option.some.injEq] at this; exact this
  · have := hd.ip
    rw [hP.ip, Option.some.injEq] at this; exact this
  · have := hd.pf _ rfl
    rw [hP.pf, Option.some.injEq] at this; exact this
  · intro b hb
    have := hd.bl b hb
    rw [hP.bl] at this
    simpa using this
  · intro hb
    unfold defaultvars at h5
    obtain ⟨s5, h5, k6⟩ := andThen_ok h5
    obtain ⟨s4, h5, k5⟩ := andThen_ok h5
    obtain ⟨s3, h5, k4⟩ := andThen_ok h5
    obtain ⟨s2, h5, k3⟩ := andThen_ok h5
    obtain ⟨s1, k1, k2⟩ := andThen_ok h5
    obtain ⟨v1, rfl, -⟩ := defCres_frame k1
    obtain ⟨v2, rfl, -⟩ := defEffdy_frame k2
    obtain ⟨v3, rfl, -⟩ := defPf_frame k3
    obtain ⟨v4, rfl, -⟩ := defRng_frame k4
    unfold defBaseline at k5
    simp only [hb, Prod.mk.injEq, true_and] at k5
    simp only [Prod.mk.injEq, true_and] at k6
    have := hP.bl
    rw [← k6, ← k5] at this
    simpa [defRest] using this.symm
  · obtain ⟨dy, hdy, hl⟩ := hr.hasdy
    intro e he
    refine hd.eff x y dy hr.hasx hr.hasy hdy hl hr.heff e ?_
    rw [hP.eff]; exact he

section

variable {W : World K} {H : Heap K} {S : Sampler K} {D : Defaults K}

theorem drRaw_pos {P : Par K} (hinc : P.x.Pairwise (· < ·)) (h0 : P.x.head? = some P.x0) (h1 : P.x.getLast? = some P.x1)
    (hl : P.x.length ≠ 1) : 0 < drRaw P := by
  have hlen : 2 ≤ P.x.length := by
    rcases hx : P.x with _ | ⟨a, _ | ⟨b, l⟩⟩
    · rw [hx] at h0; simp at h0
    · rw [hx] at hl; simp at hl
    · simp
  have hlt : P.x0 < P.x1 := by
    rcases hx : P.x with _ | ⟨a, _ | ⟨b, l⟩⟩
    · rw [hx] at h0; simp at h0
    · rw [hx] at hl; simp at hl
    · rw [hx] at h0 h1 hinc
      simp only [List.head?_cons, Option.some.injEq] at h0
      subst h0
      rw [List.getLast?_cons_cons] at h1
      exact List.rel_of_pairwise_cons hinc (List.mem_of_getLast? h1)
  unfold drRaw
  have : (2 : K) ≤ (P.x.length : K) := by exact_mod_cast hlen
  exact div_pos (by linarith) (by linarith)

/-- What the first grid is. -/
theorem firstGrid_ok (hU : Uniform S) {t : PPX K} {P : Par K} (hP : Has t P) (he : SettledEff P.eff) (hss : 0 < P.ss)
    (hinc : P.x.Pairwise (· < ·)) (hy : P.y.length = P.x.length) (hl : ∀ e, P.eff = .array e → e.length = P.x.length)
    {g : Grid K} (h : firstGrid S D t P = .ok g) :
    ∃ eff, P.eff = .array eff ∧ FirstData S P eff g.1 g.2.1 g.2.2 ∧ Data g.1 g.2.1 g.2.2 := by
  unfold firstGrid at h
  split at h
  · simp at h
  · rename_i sl hsl
    unfold FirstData
    by_cases hq : P.q = 0
    · rw [if_pos hq] at h
      obtain ⟨eff, e1, e2⟩ := raw_ok hsl hinc hy hP.first hP.last hl h
      exact ⟨eff, e1, by rw [if_pos hq]; exact e2, e2.data hinc hy (hl eff e1)⟩
    rw [if_neg hq] at h
    by_cases hone : P.x.length = 1
    · rw [if_pos hone] at h; simp at h
    rw [if_neg hone] at h
    have hraw := drRaw_pos hinc hP.first hP.last hone
    have hny : 0 < drNyquist S P := by
      unfold drNyquist
      split
      · rename_i h'; exact div_pos hU.pi_pos h'
      · exact hraw
    by_cases hs : drNyquist S P / drRaw P < P.ss
    · rw [if_pos hs, resampledata_eq hP he] at h
      obtain ⟨eff, e1, e2⟩ := sampled_ok h
      exact ⟨eff, e1, by rw [if_neg hq, if_pos hs]; exact e2, e2.data hU (div_pos hny hss)⟩
    · rw [if_neg hs] at h
      obtain ⟨eff, e1, e2⟩ := raw_ok hsl hinc hy hP.first hP.last hl h
      exact ⟨eff, e1, by rw [if_neg hq, if_neg hs]; exact e2, e2.data hinc hy (hl eff e1)⟩

theorem npars_perm {m m' : List (Extract.Key K)} (h : m.Subperm m') :
    (m.map (fun k => k.2.1.count true)).sum ≤ (m'.map (fun k => k.2.1.count true)).sum := by
  obtain ⟨l, hp, hs⟩ := h
  rw [← (hp.map (fun k : Extract.Key K => k.2.1.count true)).sum_eq]
  exact (hs.map _).sum_le_sum (fun _ _ => Nat.zero_le _)

theorem npars_keys (m : List (Part K)) : Parts.npars m false = ((m.map key).map (fun k => k.2.1.count true)).sum := by
  unfold Parts.npars
  rw [List.map_map]
  rfl

/-- Fewer peaks have no more free parameters. -/
theorem kept_npars {m m' : List (Part K)} (h : Kept m m') : Parts.npars m' false ≤ Parts.npars m false := by
  rw [npars_keys, npars_keys]; exact npars_perm h.sub

/-- A fit keeps the peaks, or estimates one. -/
theorem fitted_kept (hS : Sane W) (hE : Estimates W) {o : Opts} {c d : Cluster K} (h : fitted W o c = .ok d) :
    Kept c.model d.model ∨ (c.model = [] ∧ ∃ p, New W.func c.funcs p ∧ Kept [p] d.model) := by
  obtain ⟨-, k, -⟩ := fit_data (hS.tame c) o c
  unfold fitted at h
  generalize ModelCluster.fit (W.env c) o c = F at k h
  obtain ⟨u, d', l⟩ := F
  cases u with
  | error e => simp at h
  | ok u =>
    simp only [Except.ok.injEq] at h
    subst h
    rcases k with k | ⟨h0, -, p, hp, k⟩
    · exact Or.inl k
    · exact Or.inr ⟨h0, p, hE c p hp, k⟩

/-- At most one peak, of a supplied function. -/
def AtMostOne (W : World K) (H : Heap K) (P : Par K) (m : List (Part K)) : Prop := ∃ p, IsSupplied W H P p ∧ Kept [p] m

theorem AtMostOne.kept {P : Par K} {m m' : List (Part K)} (h : AtMostOne W H P m) (hk : Kept m m') : AtMostOne W H P m' := by
  obtain ⟨p, hp, h⟩ := h
  exact ⟨p, hp, h.trans hk⟩

theorem atMostOne_cases {P : Par K} {m : List (Part K)} (h : AtMostOne W H P m) : m = [] ∨ Single W H P m := by
  obtain ⟨p, hp, hk'⟩ := h
  cases hc : m with
  | nil => exact Or.inl rfl
  | cons p1 l =>
    right
    have hlen := hk'.length
    have hsub := hk'.sub
    rw [hc] at hlen hsub
    simp only [List.length_cons, List.length_nil] at hlen
    have hl0 : l = [] := List.length_eq_zero_iff.1 (by omega)
    subst hl0
    refine ⟨p, hp, ?_⟩
    simp only [List.map_cons, List.map_nil] at hsub ⊢
    have := hsub.subset (List.mem_singleton.2 rfl)
    rw [List.mem_singleton.1 this]

theorem pass_ok (hS : Sane W) (hE : Estimates W) {t : PPX K} {P : Par K} (hP : Has t P) (he : SettledEff P.eff)
    {M : List (Part K)} {bl : Option (Part K)} {dr : K} {c d : Cluster K}
    (hm : Grown (Supplied W.func (H.funcs P.pf)) M c.model) (hb : c.baseline = bl) (h : pass W H S D t P bl dr c = .ok d) :
    ∃ g, sampled S P dr = .ok g ∧ Stage W H P M bl g.1 g.2.1 g.2.2 d ∧ (freePars d ≤ freePars c ∨ AtMostOne W H P d.model) ∧
      (c.model ≠ [] → freePars d ≤ freePars c) := by
  unfold pass at h
  obtain ⟨g, h1, h⟩ := bind_ok h
  obtain ⟨c1, h2, h⟩ := bind_ok h
  obtain ⟨c2, h3, h⟩ := bind_ok h
  rw [resampledata_eq hP he] at h1
  have hst := stage_prune hS (stage_plainfit hS hE rfl (stage_new hm h2) h3) h
  obtain ⟨-, hk⟩ := pruned_of hS h
  obtain ⟨hof, -, hmod, -⟩ := newCluster_of (Q := fun _ => True) (fun _ _ => trivial) h2
  have hkept : Kept c.model d.model → freePars d ≤ freePars c := by
    intro hk'
    unfold freePars
    rw [hst.base, hb]
    exact Nat.add_le_add_right (kept_npars hk') _
  have hcase : Kept c.model d.model ∨ (c.model = [] ∧ AtMostOne W H P d.model) := by
    rcases fitted_kept hS hE h3 with k | ⟨h0, p, p1, k⟩
    · rw [hmod] at k; exact Or.inl (k.trans hk)
    · rw [hmod] at h0; exact Or.inr ⟨h0, p, p1.mono hof.funcs, k.trans hk⟩
  refine ⟨g, h1, hst, ?_, ?_⟩
  · rcases hcase with k | ⟨-, k⟩
    · exact Or.inl (hkept k)
    · exact Or.inr k
  · intro hne
    rcases hcase with k | ⟨k, -⟩
    · exact hkept k
    · exact absurd k hne

theorem passes_ok (hS : Sane W) (hE : Estimates W) {t : PPX K} {P : Par K} (hP : Has t P) (he : SettledEff P.eff)
    {M : List (Part K)} {bl : Option (Part K)} {w : K} : ∀ (n : ℕ) {c d : Cluster K},
    Grown (Supplied W.func (H.funcs P.pf)) M c.model → c.baseline = bl → nyquistPasses W H S D t P bl w n c = some (.ok d) →
    ∃ (k : ℕ) (g : Grid K), sampled S P (interval w (drNyquist S P) k) = .ok g ∧ Stage W H P M bl g.1 g.2.1 g.2.2 d ∧
      (freePars d ≤ k ∨ AtMostOne W H P d.model) ∧ freePars { d with model := [] } ≤ k := by
  intro n
  induction n with
  | zero => intro c d _ _ h; simp [nyquistPasses] at h
  | succ n ih =>
    intro c d hm hb h
    unfold nyquistPasses at h
    split at h
    · simp at h
    · rename_i c' hc'
      obtain ⟨g, h1, h2, h3, -⟩ := pass_ok hS hE hP he hm hb hc'
      have h4 : freePars { c' with model := [] } ≤ freePars c := by
        unfold freePars
        rw [hb]
        simp only
        rw [h2.base, npars_keys]
        simp
      split at h
      · simp only [Option.some.injEq, Except.ok.injEq] at h; subst h; exact ⟨_, g, h1, h2, h3, h4⟩
      · split at h
        · simp only [Option.some.injEq, Except.ok.injEq] at h; subst h; exact ⟨_, g, h1, h2, h3, h4⟩
        · exact ih h2.model h2.base h

theorem widthOf_ok {g : Grid K} {w : K} (h : widthOf g = .ok w) :
    ∃ a b, g.1.head? = some a ∧ g.1.getLast? = some b ∧ w = b - a := by
  unfold widthOf at h
  split at h
  · rename_i a b h1 h2
    simp only [Except.ok.injEq] at h
    exact ⟨a, b, h1, h2, h.symm⟩
  · simp at h

/-- The initial search, made into a stage. -/
theorem found_stage {P : Par K} {g : Grid K} {c : Cluster K}
    (hf : Found W ⟨g.1, g.2.1, g.2.2, H.base P.bl, H.peaks P.ip, P.cres, P.em, H.funcs P.pf⟩ (Supplied W.func (H.funcs P.pf)) true c) :
    (∃ b, c.baseline = some b ∧ SamePeak b (H.base P.bl)) ∧
    ∃ m : List (Part K), (∀ p ∈ m, IsSupplied W H P p) ∧ Kept (H.peaks P.ip ++ m) c.model ∧ hard m = [] := by
  have h0 : ∀ m : List (Part K), (∀ p ∈ m, IsSupplied W H P p) → hard m = [] := by
    intro m hm
    unfold hard
    rw [List.map_eq_nil_iff, List.filter_eq_nil_iff]
    intro p hp
    simp [(hm p hp).2]
  constructor
  · rcases hf.base with hb | ⟨-, p, p', hp, hp', hfr⟩
    · exact ⟨_, hb, rfl, rfl, rfl, rfl, Iff.rfl, rfl⟩
    · simp only [Option.some.injEq] at hp
      subst hp
      exact ⟨p', hp', hfr.owner, hfr.free, hfr.removable, hfr.static, iff_of_eq hfr.shaped, hfr.fixed⟩
  · rcases hf.model with ⟨m, hm, hk⟩ | ⟨hip, hk⟩
    · exact ⟨m, hm, hk, h0 m hm⟩
    · refine ⟨c.model, hk, ⟨?_, ?_⟩, h0 _ hk⟩
      · rw [List.map_append]
        exact (List.sublist_append_right _ _).subperm
      · rw [hard_append, h0 _ hk]
        simp only at hip
        rw [hip]
        exact List.Perm.refl _

theorem samePeak_trans {a b c : Part K} (h1 : SamePeak a b) (h2 : SamePeak b c) : SamePeak a c :=
  ⟨h1.1.trans h2.1, h1.2.1.trans h2.2.1, h1.2.2.1.trans h2.2.2.1, h1.2.2.2.1.trans h2.2.2.2.1, h1.2.2.2.2.1.trans h2.2.2.2.2.1, h1.2.2.2.2.2.trans h2.2.2.2.2.2⟩

/-- The stage before the final fit. -/
theorem refine_ok (hS : Sane W) (hE : Estimates W) {t : PPX K} {P : Par K} (hP : Has t P)
    (he : SettledEff P.eff) {g : Grid K} {eff : List K} (heff : P.eff = .array eff)
    (hfd : FirstData S P eff g.1 g.2.1 g.2.2) (hR : Ripples S) {n : ℕ} {c d : Cluster K}
    (hf : Found W ⟨g.1, g.2.1, g.2.2, H.base P.bl, H.peaks P.ip, P.cres, P.em, H.funcs P.pf⟩ (Supplied W.func (H.funcs P.pf)) true c)
    {m : List (Part K)} (hk : Kept (H.peaks P.ip ++ m) c.model)
    (h : refine W H S D t P n g c = some (.ok d)) :
    ∃ k r y e, FinalData S P eff k r y e ∧ Stage W H P ((H.peaks P.ip ++ m).map (ripplesIf S P.q)) c.baseline r y e d ∧
      (0 < P.q ∧ P.nyquist = true → (freePars d ≤ k ∨ AtMostOne W H P d.model) ∧ freePars { d with model := [] } ≤ k) := by
  unfold refine at h
  unfold FinalData
  by_cases hq : 0 < P.q
  · rw [if_pos hq] at h
    have hmap : ∀ l : List (Part K), l.map (wrap S P.q) = l.map (ripplesIf S P.q) := by
      intro l
      refine List.map_congr_left (fun p _ => ?_)
      rw [wrap_eq hR]; unfold ripplesIf; rw [if_pos hq]
    have hmap' : ∀ l : List (Part K), l.map (ripplesIf S P.q) = l.map (withRipples S P.q) := by
      intro l
      refine List.map_congr_left (fun p _ => ?_)
      unfold ripplesIf; rw [if_pos hq]
    have hg : Grown (Supplied W.func (H.funcs P.pf)) ((H.peaks P.ip ++ m).map (ripplesIf S P.q)) (c.model.map (wrap S P.q)) := by
      left
      rw [hmap, hmap', hmap']
      exact Kept.ripples hk hR P.q
    by_cases hn : P.nyquist = true
    · rw [if_pos hn] at h
      split at h
      · simp at h
      · rename_i w hw
        obtain ⟨k, g', h1, h2, h3⟩ := passes_ok hS hE hP he n (c := { c with model := c.model.map (wrap S P.q) }) hg rfl h
        obtain ⟨a, b, ha, hb, rfl⟩ := widthOf_ok hw
        obtain ⟨eff', e1, hsam⟩ := sampled_ok h1
        rw [heff, EffDy.array.injEq] at e1
        subst e1
        refine ⟨k, _, _, _, ?_, h2, fun _ => h3⟩
        rw [if_pos ⟨hq, hn⟩]
        refine ⟨_, _, _, a, b, hfd, ha, hb, ?_⟩
        have hny : drNyquist S P = S.pi / P.q := by unfold drNyquist; rw [if_pos hq]
        unfold interval at hsam
        rw [hny] at hsam
        exact hsam
    · rw [if_neg hn, Option.some.injEq] at h
      · unfold plain at h
        obtain ⟨c1, hc1, h⟩ := bind_ok h
        refine ⟨0, _, _, _, ?_, stage_prune hS (stage_new hg hc1) h, fun hh => absurd hh.2 hn⟩
        rw [if_neg (fun hh => hn hh.2)]
        exact hfd
  · rw [if_neg hq] at h
    simp only [Option.some.injEq, Except.ok.injEq] at h
    subst h
    refine ⟨0, _, _, _, ?_, ⟨hf.r, hf.y, hf.err, ⟨_, hf.slice, ?_⟩, hf.method, hf.funcs, rfl, Or.inl ?_⟩, fun hh => absurd hh.1 hq⟩
    · rw [if_neg (fun hh => hq hh.1)]; exact hfd
    · rw [hf.r]; exact get_whole0 g.1
    · have : (H.peaks P.ip ++ m).map (ripplesIf S P.q) = H.peaks P.ip ++ m := by
        conv_rhs => rw [← List.map_id (H.peaks P.ip ++ m)]
        refine List.map_congr_left (fun p _ => ?_)
        unfold ripplesIf; rw [if_neg hq]; rfl
      rw [this]; exact hk

theorem removable_ripplesIf (S : Sampler K) (q : K) (p : Part K) : (ripplesIf S q p).removable = p.removable := by
  unfold ripplesIf; split
  · exact removable_withRipples S q p
  · rfl

theorem hard_map_ripplesIf (S : Sampler K) (q : K) (m : List (Part K)) :
    hard (m.map (ripplesIf S q)) = ((m.filter (fun p => !p.removable)).map (ripplesIf S q)).map key := by
  unfold hard
  rw [List.filter_map]
  have : ((fun p : Part K => !p.removable) ∘ ripplesIf S q) = (fun p => !p.removable) := by
    funext p; simp [removable_ripplesIf]
  rw [this]

theorem begun_steps {t : PPX K} {P : Par K} (hP : Has t P) {P' : Par K} {g : Grid K} {c : Cluster K}
    (h : begun W H S D t = .ok (P', g, c)) :
    P' = P ∧ ∃ ti, firstGrid S D t P = .ok g ∧ innerVars D P g = .ok ti ∧ extractSingle W H D 3 1 ti = .ok c := by
  unfold begun at h
  obtain ⟨P'', k1, h⟩ := bind_ok h
  rw [complete_of hP, Except.ok.injEq] at k1
  subst k1
  obtain ⟨g', k2, h⟩ := bind_ok h
  obtain ⟨ti, k3, h⟩ := bind_ok h
  obtain ⟨c0, k4, h⟩ := bind_ok h
  simp only [pure, Except.pure, Except.ok.injEq, Prod.mk.injEq] at h
  obtain ⟨rfl, rfl, rfl⟩ := h
  exact ⟨rfl, ti, k2, k3, k4⟩

theorem extracted_steps {t : PPX K} {P : Par K} (hP : Has t P) {n : ℕ} {c : Cluster K}
    (h : extracted W H S D t n = some (.ok c)) :
    ∃ g ti c0 c1, firstGrid S D t P = .ok g ∧ innerVars D P g = .ok ti ∧ extractSingle W H D 3 1 ti = .ok c0 ∧
      refine W H S D t P n g c0 = some (.ok c1) ∧ fitted (final W) { fitbaseline := true } c1 = .ok c := by
  unfold extracted at h
  split at h
  · simp at h
  · rename_i P' g c0 hb
    obtain ⟨rfl, ti, k2, k3, k4⟩ := begun_steps hP hb
    rw [Option.map_eq_some_iff] at h
    obtain ⟨r, hr, h⟩ := h
    unfold finished at h
    split at h
    · simp at h
    · exact ⟨g, ti, c0, _, k2, k3, k4, hr, h⟩

/-- What `extract` computes after `defaultvars`. -/
theorem extracted_ok (hS : Sane W) (hE : Estimates W) (hU : Uniform S) (hR : Ripples S) (hN : H.peaks D.noPeaks = [])
    {t : PPX K} {P : Par K} (hP : Has t P) (he : SettledEff P.eff) (hss : 0 < P.ss)
    (hinc : P.x.Pairwise (· < ·)) (hy : P.y.length = P.x.length) (hl : ∀ e, P.eff = .array e → e.length = P.x.length)
    {n : ℕ} {c : Cluster K} (h : extracted W H S D t n = some (.ok c)) :
    ∃ eff, P.eff = .array eff ∧ Outcome W S H P eff c := by
  obtain ⟨g, ti, c0, c1, k2, k3, k4, k5, h⟩ := extracted_steps hP h
  obtain ⟨eff, heff, hfd, hdata⟩ := firstGrid_ok hU hP he hss hinc hy hl k2
  have hinner := innerVars_ok k3
  have hf := initial_found hS hE hN hinner hdata k4
  simp only [decide_true] at hf
  obtain ⟨⟨b0, hb0, hb0'⟩, m, hm, hk, hm0⟩ := found_stage hf
  obtain ⟨k, r, y, e, hfin, hst, hfew⟩ := refine_ok hS hE hP he heff hfd hR hf hk k5
  obtain ⟨hst2, hbk⟩ := stage_fit (W := final W) hS.final hE hst.final h
  have hmod := hst2.model
  have hbase : ∃ b, c.baseline = some b ∧ SamePeak b (H.base P.bl) := by
    rw [hb0] at hbk
    rcases hbk with hb | ⟨-, p, p', hp, hp', hfr⟩
    · exact ⟨b0, hb, hb0'⟩
    · simp only [Option.some.injEq] at hp
      subst hp
      exact ⟨p', hp', samePeak_trans ⟨hfr.owner, hfr.free, hfr.removable, hfr.static, iff_of_eq hfr.shaped, hfr.fixed⟩ hb0'⟩
  have hnp : ∀ b, SamePeak b (H.base P.bl) → b.npars false = b0.npars false := by
    intro b e2
    unfold Part.npars
    rw [if_neg (by simp), if_neg (by simp), e2.2.1, hb0'.2.1]
  have hfp : Kept c1.model c.model → freePars c ≤ freePars c1 := by
    intro hk'
    obtain ⟨b, e1, e2⟩ := hbase
    unfold freePars
    rw [hst.base, hb0, e1]
    simp only
    rw [hnp b e2]
    exact Nat.add_le_add_right (kept_npars hk') _
  refine ⟨eff, heff, ⟨?_, hst2.slice, hst2.method, hst2.funcs, hbase, ?_, ?_⟩⟩
  · rw [hst2.r, hst2.y, hst2.err]
    by_cases hc : 0 < P.q ∧ P.nyquist = true
    · obtain ⟨hfew1, hfew2⟩ := hfew hc
      have hone : AtMostOne W H P c.model → freePars c ≤ k ∨ Single W H P c.model := by
        intro h1
        rcases atMostOne_cases h1 with h2 | h2
        · left
          refine le_trans (le_of_eq ?_) hfew2
          unfold freePars
          rw [h2]
          obtain ⟨b, e1, e2⟩ := hbase
          rw [e1]
          simp only
          rw [hst.base, hb0]
          simp only
          rw [hnp b e2]
        · exact Or.inr h2
      refine ⟨k, hfin, ?_⟩
      rcases fitted_kept (W := final W) hS.final hE h with hk' | ⟨h0, p, p1, hk'⟩
      · rcases hfew1 with h1 | h1
        · exact Or.inl ((hfp hk').trans h1)
        · exact hone (h1.kept hk')
      · exact hone ⟨p, p1.mono hst.funcs, hk'⟩
    · refine ⟨freePars c, ?_, Or.inl (le_refl _)⟩
      unfold FinalData at hfin ⊢
      rw [if_neg hc] at hfin ⊢
      exact hfin
  · rcases hmod with hk' | ⟨-, p, hp, hk'⟩
    · exact Or.inl ⟨m, hm, hk'.sub⟩
    · rcases atMostOne_cases ⟨p, hp, hk'⟩ with h0 | h0
      · rw [h0]; exact Or.inl ⟨[], by simp, List.nil_subperm⟩
      · exact Or.inr h0
  · have hhard : ∀ l : List (Part K), hard ((H.peaks P.ip ++ m).map (ripplesIf S P.q)) =
        (((H.peaks P.ip).filter (fun p => !p.removable)).map (ripplesIf S P.q)).map key := by
      intro _
      rw [hard_map_ripplesIf, List.filter_append]
      have : m.filter (fun p => !p.removable) = [] := by
        unfold hard at hm0
        exact List.map_eq_nil_iff.1 hm0
      rw [this, List.append_nil]
    rcases hmod with hk' | ⟨h0, p, hp, hk'⟩
    · have := hk'.hard
      rw [hhard []] at this
      exact this
    · rw [hhard []] at h0
      rw [h0]
      have := hk'.hard
      have hz : hard [p] = [] := by
        have h' : p.removable = true := hp.2.1
        unfold hard; simp [h']
      rw [hz] at this
      unfold hard at this
      exact this

end

end Verif.Parts.PdfExtract
