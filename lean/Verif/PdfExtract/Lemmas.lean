import Verif.PdfExtract.Model
import Verif.Extract.Props
import Verif.Pdf.Vars
import Verif.Pdf.Resample

/-!
# Lemmas for `PDFPeakExtraction.extract` and `.fit`
-/

set_option linter.unusedSectionVars false

namespace Verif.Parts.PdfExtract

open Verif.Py Verif.Extraction Verif.Pdf Verif.Parts.Extract Verif.Parts.ModelCluster

variable {K : Type} [Field K] [LinearOrder K] [IsStrictOrderedRing K]

/-! ### Complete variables -/

theorem need_ok {α : Type} {o : Option α} {a : α} (h : need o = .ok a) : o = some a := by
  cases o with
  | none => simp [need] at h
  | some b => simp only [need, Except.ok.injEq] at h; rw [h]

theorem need1_ok {α : Type} {o : Option α} {a : α} (h : need1 o = .ok a) : o = some a := by
  cases o with
  | none => simp [need1] at h
  | some b => simp only [need1, Except.ok.injEq] at h; rw [h]

theorem needRng_ok {o : Option (Option K × Option K)} {r : K × K} (h : needRng o = .ok r) :
    o = some (some r.1, some r.2) := by
  unfold needRng at h
  split at h
  · simp only [Except.ok.injEq] at h; rw [← h]
  · simp at h

theorem needBase_ok {o : Option Base} {b : ℕ} (h : needBase o = .ok b) : o = some (.inst b) := by
  unfold needBase at h
  split at h
  · simp only [Except.ok.injEq] at h; rw [← h]
  · simp at h

/-- The variables that `P` collects. -/
structure Has (s : PPX K) (P : Par K) : Prop where
  x : s.base.x = some P.x
  y : s.base.y = some P.y
  eff : s.base.effdy = P.eff
  rng : s.base.rng = some (some P.a, some P.b)
  first : P.x.head? = some P.x0
  last : P.x.getLast? = some P.x1
  q : s.qmax = some P.q
  nyquist : s.nyquist = some P.nyquist
  scale : s.scale = some P.scale
  ss : s.supersample = some P.ss
  cres : s.base.cres = some P.cres
  em : s.base.errorMethod = some P.em
  pf : s.base.pf = some P.pf
  bl : s.base.baseline = some (.inst P.bl)
  ip : s.base.initialPeaks = some P.ip

theorem complete_ok {s : PPX K} {P : Par K} (h : complete s = .ok P) : Has s P := by
  unfold complete at h
  obtain ⟨x, h1, h⟩ := bind_ok h
  obtain ⟨y, h2, h⟩ := bind_ok h
  obtain ⟨r, h3, h⟩ := bind_ok h
  obtain ⟨x0, h4, h⟩ := bind_ok h
  obtain ⟨x1, h5, h⟩ := bind_ok h
  obtain ⟨q, h6, h⟩ := bind_ok h
  obtain ⟨n, h7, h⟩ := bind_ok h
  obtain ⟨sc, h8, h⟩ := bind_ok h
  obtain ⟨ss, h9, h⟩ := bind_ok h
  obtain ⟨cres, h10, h⟩ := bind_ok h
  obtain ⟨em, h11, h⟩ := bind_ok h
  obtain ⟨pf, h12, h⟩ := bind_ok h
  obtain ⟨bl, h13, h⟩ := bind_ok h
  obtain ⟨ip, h14, h⟩ := bind_ok h
  simp only [pure, Except.pure, Except.ok.injEq] at h
  subst h
  exact ⟨need_ok h1, need_ok h2, rfl, needRng_ok h3, need1_ok h4, need1_ok h5, need_ok h6, need_ok h7, need_ok h8,
    need_ok h9, need_ok h10, need_ok h11, need_ok h12, needBase_ok h13, need_ok h14⟩

theorem complete_of {s : PPX K} {P : Par K} (h : Has s P) : complete s = .ok P := by
  unfold complete
  rw [h.x, h.y, h.rng, h.q, h.nyquist, h.scale, h.ss, h.cres, h.em, h.pf, h.bl, h.ip]
  simp only [need, needRng, needBase, bind, Except.bind, h.first, h.last, need1, pure, Except.pure, h.eff]

/-! ### Defaults are settled after one call -/

/-- An `effective_dy` that `defaultvars` leaves alone. -/
def SettledEff (e : EffDy K) : Prop := (∃ l, e = .array l) ∨ ∃ v, e = .scalar v ∧ ¬ 0 < v

theorem defEffdy_settled {s t : PX K} (h : defEffdy s = (.ok (), t)) : SettledEff t.effdy := by
  unfold defEffdy at h
  split at h
  · split at h
    · simp only [Prod.mk.injEq, true_and] at h; rw [← h]; exact Or.inl ⟨_, rfl⟩
    · split at h
      · simp at h
      · simp only [Prod.mk.injEq, true_and] at h; rw [← h]; exact Or.inl ⟨_, rfl⟩
  · simp at h
  · rename_i v x he hx
    split at h
    · simp only [Prod.mk.injEq, true_and] at h; rw [← h]; exact Or.inl ⟨_, rfl⟩
    · rename_i hv
      simp only [Prod.mk.injEq, true_and] at h; rw [← h]; exact Or.inr ⟨v, he, hv⟩
  · rename_i v he hx
    split at h
    · simp at h
    · rename_i hv
      simp only [Prod.mk.injEq, true_and] at h; rw [← h]; exact Or.inr ⟨v, he, hv⟩
  · rename_i l he
    simp only [Prod.mk.injEq, true_and] at h; rw [← h]; exact Or.inl ⟨l, he⟩

theorem defaultvars_settledEff {D : Defaults K} {s t : PX K} (h : defaultvars D s = (.ok (), t)) :
    SettledEff t.effdy := by
  unfold defaultvars at h
  obtain ⟨s5, h, h6⟩ := andThen_ok h
  obtain ⟨s4, h, h5⟩ := andThen_ok h
  obtain ⟨s3, h, h4⟩ := andThen_ok h
  obtain ⟨s2, h, h3⟩ := andThen_ok h
  obtain ⟨s1, h1, h2⟩ := andThen_ok h
  have := defEffdy_settled h2
  obtain ⟨v3, rfl, k3⟩ := defPf_frame h3
  obtain ⟨v4, rfl, k4⟩ := defRng_frame h4
  obtain ⟨v5, rfl, k5⟩ := defBaseline_frame h5
  simp only [Prod.mk.injEq, true_and] at h6
  subst h6
  exact this

theorem defaultvars_fix {D : Defaults K} {t : PX K} {c a b : K} {f em bl ip : ℕ} (h1 : t.cres = some c)
    (h2 : SettledEff t.effdy) (h3 : t.pf = some f) (h4 : t.rng = some (some a, some b))
    (h5 : t.baseline = some (.inst bl)) (h6 : t.errorMethod = some em) (h7 : t.initialPeaks = some ip) :
    defaultvars D t = (.ok (), t) := by
  obtain ⟨tx, ty, tdx, tdy, teff, trng, tpf, tip, tbl, tcr, tem⟩ := t
  simp only at h1 h2 h3 h4 h5 h6 h7
  subst h1 h3 h4 h5 h6 h7
  unfold defaultvars
  have e1 : defCres (⟨tx, ty, tdx, tdy, teff, some (some a, some b), some f, some ip, some (.inst bl), some c, some em⟩ : PX K) =
    (.ok (), ⟨tx, ty, tdx, tdy, teff, some (some a, some b), some f, some ip, some (.inst bl), some c, some em⟩) := rfl
  have e2 : defEffdy (⟨tx, ty, tdx, tdy, teff, some (some a, some b), some f, some ip, some (.inst bl), some c, some em⟩ : PX K) =
    (.ok (), ⟨tx, ty, tdx, tdy, teff, some (some a, some b), some f, some ip, some (.inst bl), some c, some em⟩) := by
    rcases h2 with ⟨l, rfl⟩ | ⟨v, rfl, hv⟩
    · rfl
    · unfold defEffdy
      cases tx with
      | none => simp only; rw [if_neg hv]
      | some x => simp only; rw [if_neg hv]
  rw [e1]
  simp only [andThen]
  rw [e2]
  rfl

/-- What `PDFPeakExtraction.defaultvars` does to the variables of its own class, and what the base class starts from. -/
theorem pdefault_ok {pi : K} {D : Defaults K} {s t : PPX K} (h : pdefaultvars pi D s = (.ok (), t)) :
    t.qmax = some (chooseQmax s) ∧ t.nyquist = some (s.nyquist.getD (decide (0 < chooseQmax s))) ∧
    t.scale = some (s.scale.getD false) ∧ t.supersample = some (s.supersample.getD 4) ∧
    defaultvars D { s.base with cres := chooseCres pi (chooseQmax s) s.base.cres, pf := some (s.base.pf.getD (D.gaussianOverR (7 / 10))) } =
      (.ok (), t.base) := by
  unfold pdefaultvars at h
  simp only [Prod.mk.injEq] at h
  obtain ⟨h1, h2⟩ := h
  subst h2
  exact ⟨rfl, rfl, rfl, rfl, Prod.ext h1 rfl⟩

theorem pdefault_settled {pi : K} {D : Defaults K} {s t : PPX K} (h : pdefaultvars pi D s = (.ok (), t)) :
    SettledEff t.base.effdy := defaultvars_settledEff (pdefault_ok h).2.2.2.2

theorem chooseCres_some (pi q c : K) : chooseCres pi q (some c) = some c := rfl

/-- A second call changes nothing. -/
theorem pdefault_fix {pi : K} {D : Defaults K} {t : PPX K} {P : Par K} (h : Has t P) (he : SettledEff P.eff) :
    pdefaultvars pi D t = (.ok (), t) := by
  have hq : chooseQmax t = P.q := by unfold chooseQmax; rw [h.q]
  have hd : defaultvars D t.base = (.ok (), t.base) :=
    defaultvars_fix h.cres (by rw [h.eff]; exact he) h.pf h.rng h.bl h.em h.ip
  obtain ⟨tb, tq, tn, ts, tss, tr, tf⟩ := t
  have h1 := h.q; have h2 := h.nyquist; have h3 := h.scale; have h4 := h.ss; have h5 := h.cres; have h6 := h.pf
  simp only at h1 h2 h3 h4 h5 h6
  subst h1 h2 h3 h4
  have hb : ({ tb with cres := chooseCres pi P.q tb.cres, pf := some (tb.pf.getD (D.gaussianOverR (7 / 10))) } : PX K) = tb := by
    obtain ⟨tx, ty, tdx, tdy, teff, trng, tpf, tip, tbl, tcr, tem⟩ := tb
    simp only at h5 h6
    subst h5 h6
    rfl
  unfold pdefaultvars
  rw [hq]
  simp only [Option.getD_some]
  rw [hb, hd]

theorem resampledata_eq {S : Sampler K} {D : Defaults K} {t : PPX K} {P : Par K} (h : Has t P) (he : SettledEff P.eff)
    (dr : K) : resampledata S D t dr = sampled S P dr := by
  unfold resampledata
  rw [pdefault_fix h he]
  simp only
  rw [complete_of h]

/-! ### The grids -/

/-- What `arange` and `resample` are: for a positive interval all points `a + k dr` below `b`; no points for interval
zero; as many new values as points, of which there must be some.  (True of the functions of the code, see
`realSampler_uniform`.) -/
structure Uniform (S : Sampler K) : Prop where
  pi_pos : 0 < S.pi
  grid : ∀ a b dr, 0 < dr → ∃ N : ℕ, S.arange a b dr = (List.range N).map (fun k : ℕ => a + k * dr) ∧
    ∀ k : ℕ, k < N ↔ a + k * dr < b
  zero : ∀ a b, S.arange a b 0 = []
  len : ∀ x y r y', S.resample x y r = .ok y' → y'.length = r.length
  nonempty : ∀ x y r y', S.resample x y r = .ok y' → r ≠ []

theorem Uniform.inc {S : Sampler K} (h : Uniform S) (a b dr : K) (hdr : 0 < dr) : (S.arange a b dr).Pairwise (· < ·) := by
  obtain ⟨N, e, -⟩ := h.grid a b dr hdr
  rw [e, List.pairwise_map]
  refine List.pairwise_lt_range.imp ?_
  intro i j hij
  have : (i : K) < j := by exact_mod_cast hij
  nlinarith

/-- The data `(r, y, e)` are the user's data resampled with interval `dr`: the points `max x0 a + k dr` below
`min x1 b`, the interpolated values, the interpolated and scaled uncertainties. -/
structure Sampled (S : Sampler K) (P : Par K) (eff : List K) (dr : K) (r y e : List K) : Prop where
  grid : r = S.arange (max P.x0 P.a) (min P.x1 P.b) dr
  values : S.resample P.x P.y r = .ok y
  errors : e = r.map (fun v => S.errorscale P.q P.nyquist P.scale dr * S.interp v P.x eff)

/-- The data `(r, y, e)` are exactly the user's data in the range, with the uncertainties multiplied by `f`. -/
structure Selected (P : Par K) (eff : List K) (f : K) (r y e : List K) : Prop where
  grid : r = inRange P.x P.a P.b P.x
  values : y = inRange P.x P.a P.b P.y
  errors : e = (inRange P.x P.a P.b eff).map (fun v => f * v)

theorem sampled_ok {S : Sampler K} {P : Par K} {dr : K} {g : Grid K} (h : sampled S P dr = .ok g) :
    ∃ eff, P.eff = .array eff ∧ Sampled S P eff dr g.1 g.2.1 g.2.2 := by
  unfold sampled at h
  simp only at h
  split at h
  · simp at h
  · rename_i y hy
    split at h
    · rename_i e he
      simp only [Except.ok.injEq] at h
      subst h
      exact ⟨e, he, ⟨rfl, hy, rfl⟩⟩
    · simp at h

/-- The data as the user supplied them. -/
structure Given (P : Par K) (eff : List K) : Prop where
  inc : P.x.Pairwise (· < ·)
  leny : P.y.length = P.x.length
  lene : eff.length = P.x.length
  first : P.x.head? = some P.x0
  last : P.x.getLast? = some P.x1

theorem raw_ok {P : Par K} {sl : ℕ × ℤ} {f : K} {g : Grid K} (hsl : getrangeslice P.x P.a P.b = .ok sl)
    (hinc : P.x.Pairwise (· < ·)) (hy : P.y.length = P.x.length) (h0 : P.x.head? = some P.x0)
    (h1 : P.x.getLast? = some P.x1) (he : ∀ e, P.eff = .array e → e.length = P.x.length)
    (h : rawGrid P sl f = .ok g) : ∃ eff, P.eff = .array eff ∧ Selected P eff f g.1 g.2.1 g.2.2 := by
  unfold rawGrid at h
  simp only at h
  split at h
  · rename_i e hee
    simp only [Except.ok.injEq] at h
    subst h
    have hc40 := c40_range_slice P.x (hinc.imp le_of_lt) P.a P.b P.x0 P.x1 h0 h1
    have hab : P.a ≤ P.x1 ∧ P.x0 ≤ P.b := by
      by_contra hcon
      rw [hc40.2 hcon] at hsl
      simp at hsl
    obtain ⟨lo', hi', e1, -, -, hiff⟩ := hc40.1 hab
    rw [e1] at hsl
    simp only [Except.ok.injEq] at hsl
    subst hsl
    simp only [Int.toNat_natCast]
    refine ⟨e, hee, getSlice_inRange hiff rfl, getSlice_inRange hiff hy, ?_⟩
    rw [← getSlice_inRange hiff (he e hee)]
  · simp at h

theorem inRange_sublist {α : Type} (x : List K) (a b : K) (l : List α) : (inRange x a b l).Sublist l := by
  unfold inRange
  refine (List.Sublist.map _ List.filter_sublist).trans ?_
  have : ∀ (x : List K) (l : List α), ((x.zip l).map Prod.snd).Sublist l := by
    intro x
    induction x with
    | nil => intro l; simp
    | cons a x ih =>
      intro l
      cases l with
      | nil => simp
      | cons b l => simpa using ih l
  exact this x l

theorem inRange_length {α : Type} (x : List K) (a b : K) (l : List α) (h : l.length = x.length) :
    (inRange x a b l).length = (inRange x a b x).length := by
  unfold inRange
  rw [List.length_map, List.length_map]
  induction x generalizing l with
  | nil => simp
  | cons v x ih =>
    match l, h with
    | w :: l, h =>
      have := ih l (by simpa using h)
      simp only [List.zip_cons_cons, List.filter_cons]
      split <;> simpa using this

theorem Selected.data {P : Par K} {eff : List K} {f : K} {r y e : List K} (h : Selected P eff f r y e)
    (hinc : P.x.Pairwise (· < ·)) (hy : P.y.length = P.x.length) (he : eff.length = P.x.length) : Data r y e := by
  refine ⟨?_, ?_, ?_⟩
  · rw [h.grid]; exact List.Pairwise.sublist (inRange_sublist _ _ _ _) hinc
  · rw [h.values, h.grid, inRange_length _ _ _ _ hy]
  · rw [h.errors, h.grid, List.length_map, inRange_length _ _ _ _ he]

theorem Sampled.data {S : Sampler K} (hU : Uniform S) {P : Par K} {eff : List K} {dr : K} (hdr : 0 < dr) {r y e : List K}
    (h : Sampled S P eff dr r y e) : Data r y e := by
  refine ⟨?_, hU.len _ _ _ _ h.values, ?_⟩
  · rw [h.grid]; exact hU.inc _ _ _ hdr
  · rw [h.errors, List.length_map]

/-! ### The inner extraction -/

/-- An increasing list lies between its ends. -/
theorem inRange_all {α : Type} {x : List K} {x0 x1 : K} (hinc : x.Pairwise (· < ·)) (h0 : x.head? = some x0)
    (h1 : x.getLast? = some x1) {l : List α} (hl : l.length = x.length) : inRange x x0 x1 l = l := by
  have hmem : ∀ v ∈ x, x0 ≤ v ∧ v ≤ x1 := by
    intro v hv
    constructor
    · cases x with
      | nil => simp at hv
      | cons a x =>
        simp only [List.head?_cons, Option.some.injEq] at h0
        subst h0
        rcases List.mem_cons.1 hv with rfl | hv
        · exact le_refl _
        · exact (List.rel_of_pairwise_cons hinc hv).le
    · have hne : x ≠ [] := by rintro rfl; simp at hv
      have e := List.dropLast_append_getLast hne
      rw [List.getLast?_eq_some_getLast hne, Option.some.injEq] at h1
      rw [h1] at e
      rw [← e] at hv hinc
      rcases List.mem_append.1 hv with hv | hv
      · exact ((List.pairwise_append.1 hinc).2.2 v hv x1 (by simp)).le
      · rw [List.mem_singleton.1 hv]
  unfold inRange
  rw [List.filter_eq_self.2]
  · rw [List.map_snd_zip (by omega)]
  · intro p hp
    simp only [decide_eq_true_eq]
    exact hmem p.1 (List.of_mem_zip hp).1

/-- The inner object: its data and variables, with the whole grid as range. -/
structure Inner (P : Par K) (g : Grid K) (t : PX K) : Prop where
  x : t.x = some g.1
  y : t.y = some g.2.1
  dy : t.dy = some (g.1.map (fun _ => 0))
  eff : t.effdy = .array g.2.2
  rng : ∃ x0 x1, g.1.head? = some x0 ∧ g.1.getLast? = some x1 ∧ t.rng = some (some x0, some x1)
  cres : t.cres = some P.cres
  em : t.errorMethod = some P.em
  pf : t.pf = some P.pf
  bl : t.baseline = some (.inst P.bl)
  ip : t.initialPeaks = some P.ip

theorem innerVars_ok {D : Defaults K} {P : Par K} {g : Grid K} {t : PX K} (h : innerVars D P g = .ok t) : Inner P g t := by
  unfold innerVars at h
  split at h
  · simp at h
  · rename_i u hu
    split at h
    · simp at h
    · rename_i t' ht
      simp only [Except.ok.injEq] at h
      subst h
      have hu' : u = { x := some g.1, y := some g.2.1, dx := some (g.1.map (fun _ => 0)), dy := some (g.1.map (fun _ => 0)) } := by
        unfold setdata at hu
        split at hu
        · simp at hu
        · simp only [Option.getD_none] at hu
          split at hu
          · simp at hu
          · simp only [Prod.mk.injEq, true_and] at hu; exact hu.symm
      subst hu'
      unfold setvars at ht
      have hl : setLoop [.cres (some P.cres), .pf (some P.pf), .effective_dy (.array g.2.2),
          .baseline (some (.inst P.bl)), .error_method (some P.em), .initial_peaks (some P.ip)]
          ({ x := some g.1, y := some g.2.1, dx := some (g.1.map (fun _ => 0)), dy := some (g.1.map (fun _ => 0)) } : PX K) =
          (.ok (), { x := some g.1, y := some g.2.1, dx := some (g.1.map (fun _ => 0)), dy := some (g.1.map (fun _ => 0)), effdy := .array g.2.2, pf := some P.pf, initialPeaks := some P.ip, baseline := some (.inst P.bl), cres := some P.cres, errorMethod := some P.em }) := rfl
      rw [hl] at ht
      simp only [andThen] at ht
      unfold defaultvars at ht
      have e1 : ∀ s : PX K, s.cres = some P.cres → defCres s = (.ok (), s) := by
        intro s hs; unfold defCres; rw [hs]
      rw [e1 _ rfl] at ht
      simp only [andThen, defEffdy, defPf] at ht
      unfold defRng ends at ht
      simp only at ht
      cases hh : g.1.head? with
      | none => rw [hh] at ht; simp at ht
      | some x0 =>
        cases hl' : g.1.getLast? with
        | none => rw [hh, hl'] at ht; simp at ht
        | some x1 =>
          rw [hh, hl'] at ht
          simp only [Option.bind_none, Option.getD_none, defBaseline, defRest, Option.getD_some, Prod.mk.injEq, true_and] at ht
          subst ht
          exact ⟨rfl, rfl, rfl, rfl, ⟨x0, x1, by trivial, by trivial, rfl⟩, rfl, rfl, rfl, rfl, rfl⟩

theorem Inner.ready {P : Par K} {g : Grid K} {t : PX K} (h : Inner P g t) (hd : Data g.1 g.2.1 g.2.2) :
    Ready t g.1 g.2.1 :=
  ⟨h.x, h.y, ⟨_, h.dy, by simp⟩, by
    intro e he
    rw [h.eff] at he
    simp only [EffDy.array.injEq] at he
    rw [← he]; exact hd.lene, hd.inc, hd.leny⟩

theorem Inner.fix {D : Defaults K} {P : Par K} {g : Grid K} {t : PX K} (h : Inner P g t) :
    defaultvars D t = (.ok (), t) := by
  obtain ⟨x0, x1, -, -, hr⟩ := h.rng
  exact defaultvars_fix h.cres (Or.inl ⟨_, h.eff⟩) h.pf hr h.bl h.em h.ip

/-- The job of the inner extraction. -/
theorem Inner.job {H : Heap K} {D : Defaults K} {P : Par K} {g : Grid K} {t : PX K} {J : Job K} (h : Inner P g t)
    (hd : Data g.1 g.2.1 g.2.2) (hJ : jobOf H t = .ok J) (hne : J.x ≠ []) :
    J = ⟨g.1, g.2.1, g.2.2, H.base P.bl, H.peaks P.ip, P.cres, P.em, H.funcs P.pf⟩ := by
  obtain ⟨x0, x1, e, h0, h1, he, d1, d2, d3⟩ := job_range (h.ready hd) (h.fix (D := D)) hJ hne
  obtain ⟨x0', x1', h0', h1', hr⟩ := h.rng
  rw [h0, Option.some.injEq] at h0'
  rw [h1, Option.some.injEq] at h1'
  subst h0' h1'
  have hro : rangeOf t x0 x1 = (x0, x1) := by unfold rangeOf; rw [hr]; rfl
  rw [h.eff] at he
  simp only [EffDy.array.injEq] at he
  subst he
  rw [hro] at d1 d2 d3
  simp only at d1 d2 d3
  rw [inRange_all hd.inc h0 h1 rfl] at d1
  rw [inRange_all hd.inc h0 h1 hd.leny] at d2
  rw [inRange_all hd.inc h0 h1 hd.lene] at d3
  obtain ⟨x', y', e, a, b, bl, ip, cres, em, pf, lo, hi, k1, k2, k3, k4, k5, k6, k7, k8, k9, k10, rfl⟩ := jobOf_ok hJ
  simp only at d1 d2 d3
  rw [h.bl] at k5
  rw [h.ip, Option.some.injEq] at k6
  rw [h.cres, Option.some.injEq] at k7
  rw [h.em, Option.some.injEq] at k8
  rw [h.pf, Option.some.injEq] at k9
  simp only [Option.some.injEq, Base.inst.injEq] at k5
  rw [d1, d2, d3, k5, k6, k7, k8, k9]

/-- What the initial extraction returns. -/
theorem initial_found {W : World K} {H : Heap K} {D : Defaults K} (hS : Sane W) (hE : Estimates W)
    (hN : H.peaks D.noPeaks = []) {P : Par K} {g : Grid K} {t : PX K} (h : Inner P g t) (hd : Data g.1 g.2.1 g.2.2)
    {n depth : ℕ} {c : Cluster K} (hc : extractSingle W H D n depth t = .ok c) :
    Found W ⟨g.1, g.2.1, g.2.2, H.base P.bl, H.peaks P.ip, P.cres, P.em, H.funcs P.pf⟩ (Supplied W.func (H.funcs P.pf))
      (decide (depth = 1)) c := by
  obtain ⟨t', J, hdv, hJ, hdata, hne, hf⟩ := extract_found hS hE hN n depth t c g.1 g.2.1 (h.ready hd) hc
  rw [h.fix] at hdv
  simp only [Prod.mk.injEq, true_and] at hdv
  subst hdv
  have := h.job (D := D) hd hJ hne
  subst this
  exact hf

/-! ### Termination ripples -/

/-- The peak with termination ripples: unless the function has them, or must not be changed. -/
def withRipples (S : Sampler K) (q : K) (p : Part K) : Part K :=
  if p.staticOwner ∨ S.isRipple p.owner then p else { p with owner := S.ripple q p.owner }

/-- A function with ripples is a new object with the parameters of its base, in the same formats. -/
structure Ripples (S : Sampler K) : Prop where
  npars : ∀ q o, (S.ripple q o).npars = o.npars
  new : ∀ q o, (S.ripple q o).id ≠ o.id
  format : ∀ q o, (S.ripple q o).transform = o.transform

theorem wrap_eq {S : Sampler K} (hR : Ripples S) (q : K) (p : Part K) : wrap S q p = withRipples S q p := by
  unfold wrap withRipples Part.changeowner
  by_cases h1 : S.isRipple p.owner = true
  · rw [if_pos h1, if_pos (Or.inr h1)]
  · rw [if_neg h1]
    by_cases h2 : p.staticOwner = true
    · rw [if_pos ⟨h2, (hR.new q p.owner).symm⟩, if_pos (Or.inl h2)]
    · rw [if_neg (fun h => h2 h.1), if_neg (by simp [hR.npars]), if_neg (by simp [h1, h2])]

/-- What happens to the key. -/
def rippleKey (S : Sampler K) (q : K) (k : Extract.Key K) : Extract.Key K :=
  if k.2.2.2.1 = true ∨ S.isRipple k.1 = true then k else (S.ripple q k.1, k.2)

theorem key_withRipples {S : Sampler K} (hR : Ripples S) (q : K) (p : Part K) : key (withRipples S q p) = rippleKey S q (key p) := by
  unfold withRipples rippleKey key
  simp only
  by_cases h : p.staticOwner = true ∨ S.isRipple p.owner = true
  · rw [if_pos h, if_pos h]
  · rw [if_neg h, if_neg h]
    have : Shaped { p with owner := S.ripple q p.owner } = Shaped p := by
      unfold Shaped
      simp only [hR.npars, hR.format]
    have h2 : Fixed { p with owner := S.ripple q p.owner } = Fixed p := by
      funext norm i
      unfold Fixed
      have : (∀ (v q_1 : List K) (i : ℕ), (S.ripple q p.owner).transform v (some "internal") (some "internal") = .ok q_1 → (q_1[i]?).map (norm i) = (v[i]?).map (norm i)) ↔ Keeps p.owner norm := by
        unfold Keeps; simp only [hR.format]
      by_cases h : Keeps p.owner norm ∧ p.free[i]? = some false
      · rw [if_pos h, if_pos ⟨this.2 h.1, h.2⟩]
      · rw [if_neg h, if_neg (fun h2 => h ⟨this.1 h2.1, h2.2⟩)]
    rw [this, h2]

theorem removable_withRipples (S : Sampler K) (q : K) (p : Part K) : (withRipples S q p).removable = p.removable := by
  unfold withRipples; split <;> rfl

theorem map_key_ripples {S : Sampler K} (hR : Ripples S) (q : K) (m : List (Part K)) :
    (m.map (withRipples S q)).map key = (m.map key).map (rippleKey S q) := by
  rw [List.map_map, List.map_map]
  exact List.map_congr_left (fun p _ => key_withRipples hR q p)

theorem hard_ripples {S : Sampler K} (hR : Ripples S) (q : K) (m : List (Part K)) :
    hard (m.map (withRipples S q)) = (hard m).map (rippleKey S q) := by
  unfold hard
  rw [List.filter_map, List.map_map, List.map_map]
  have : ((fun p : Part K => !p.removable) ∘ withRipples S q) = (fun p => !p.removable) := by
    funext p; simp [removable_withRipples]
  rw [this]
  exact List.map_congr_left (fun p _ => key_withRipples hR q p)

theorem subperm_map {α β : Type} {l m : List α} (f : α → β) (h : l.Subperm m) : (l.map f).Subperm (m.map f) := by
  obtain ⟨l', hp, hs⟩ := h
  exact ⟨l'.map f, hp.map f, hs.map f⟩

theorem Kept.ripples {m m' : List (Part K)} (h : Kept m m') {S : Sampler K} (hR : Ripples S) (q : K) :
    Kept (m.map (withRipples S q)) (m'.map (withRipples S q)) := by
  constructor
  · rw [map_key_ripples hR, map_key_ripples hR]; exact subperm_map _ h.sub
  · rw [hard_ripples hR, hard_ripples hR]; exact h.hard.map _

/-! ### Fits and prunings -/

/-- What a sequence of fits and prunings can make of the peaks `M`: some of them (with every non-removable one), or,
if none was left at some time and none was non-removable, at most a single estimated peak. -/
def Grown (Q : Extract.Key K → Prop) (M m : List (Part K)) : Prop :=
  Kept M m ∨ (hard M = [] ∧ ∃ p, Q (key p) ∧ Kept [p] m)

theorem Grown.kept {Q : Extract.Key K → Prop} {M m m' : List (Part K)} (h : Grown Q M m) (hk : Kept m m') : Grown Q M m' := by
  rcases h with h | ⟨h0, p, hp, h⟩
  · exact Or.inl (h.trans hk)
  · exact Or.inr ⟨h0, p, hp, h.trans hk⟩

theorem Grown.anew {Q : Extract.Key K → Prop} {M m : List (Part K)} {p : Part K} (h : Grown Q M []) (hp : Q (key p))
    (hk : Kept [p] m) : Grown Q M m := by
  rcases h with h | ⟨h0, -, -, -⟩
  · refine Or.inr ⟨?_, p, hp, hk⟩
    have := h.hard
    simpa [hard] using this.symm.eq_nil
  · exact Or.inr ⟨h0, p, hp, hk⟩

/-- The state of the extraction: data, extent, baseline, evaluator, functions, peaks. -/
structure Stage (W : World K) (H : Heap K) (P : Par K) (M : List (Part K)) (bl : Option (Part K)) (r y e : List K) (c : Cluster K) : Prop where
  r : c.r = r
  y : c.y = y
  err : c.err = e
  slice : ∃ s, c.slice = some s ∧ s.get c.r = c.r
  method : c.method = P.em
  funcs : ∀ f ∈ c.funcs, f ∈ H.funcs P.pf
  base : c.baseline = bl
  model : Grown (Supplied W.func (H.funcs P.pf)) M c.model

theorem Stage.final {W : World K} {H : Heap K} {P : Par K} {M : List (Part K)} {bl : Option (Part K)} {r y e : List K} {c : Cluster K}
    (h : Stage W H P M bl r y e c) : Stage (final W) H P M bl r y e c :=
  ⟨h.r, h.y, h.err, h.slice, h.method, h.funcs, h.base, h.model⟩

theorem get_whole {α : Type} (l : List α) : (Slice.get ⟨none, l.length⟩ l) = l := by
  simp [Slice.get, getSlice, bounds]

theorem get_whole0 {α : Type} (l : List α) : (Slice.get ⟨some 0, l.length⟩ l) = l := by
  simp [Slice.get, getSlice, bounds]

theorem stage_new {W : World K} {H : Heap K} {P : Par K} {g0 : Grid K} {M m : List (Part K)} {bl : Option (Part K)}
    {g : Grid K} {c : Cluster K} (hm : Grown (Supplied W.func (H.funcs P.pf)) M m)
    (h : newCluster W (jobFor H P g0) m bl g.1 g.2.1 g.2.2 none = .ok c) : Stage W H P M bl g.1 g.2.1 g.2.2 c := by
  obtain ⟨hof, hsl, hmod, -⟩ := newCluster_of (Q := fun _ => True) (fun _ _ => trivial) h
  refine ⟨hof.r, hof.y, hof.err, ⟨_, hsl, ?_⟩, hof.method, hof.funcs, hof.bl, by rw [hmod]; exact hm⟩
  rw [hof.r]
  exact get_whole g.1

theorem stage_prune {W : World K} {H : Heap K} {P : Par K} (hS : Sane W) {J : Job K} {M : List (Part K)}
    {bl : Option (Part K)} {r y e : List K} {c d : Cluster K} (h : Stage W H P M bl r y e c) (hd : pruned W J c = .ok d) :
    Stage W H P M bl r y e d := by
  obtain ⟨e1, hk⟩ := pruned_of hS hd
  rw [e1]
  exact ⟨h.r, h.y, h.err, h.slice, h.method, h.funcs, h.base, h.model.kept hk⟩

/-- A fit, the baseline apart. -/
theorem stage_fit {W : World K} {H : Heap K} {P : Par K} (hS : Sane W) (hE : Estimates W) {M : List (Part K)}
    {bl : Option (Part K)} {r y e : List K} {c d : Cluster K} {o : Opts} (h : Stage W H P M bl r y e c)
    (hd : fitted W o c = .ok d) : Stage W H P M d.baseline r y e d ∧ BaseKept o bl d.baseline := by
  obtain ⟨a, k, b⟩ := fit_data (hS.tame c) o c
  unfold fitted at hd
  generalize ModelCluster.fit (W.env c) o c = F at a b k hd
  obtain ⟨u, d', l⟩ := F
  cases u with
  | error e => simp at hd
  | ok u =>
    simp only [Except.ok.injEq] at hd
    subst hd
    simp only at a k b
    rw [h.base] at b
    refine ⟨⟨by rw [a.r, h.r], by rw [a.y, h.y], by rw [a.err, h.err], ?_, by rw [a.method, h.method],
      by rw [a.funcs]; exact h.funcs, rfl, ?_⟩, b⟩
    · obtain ⟨s, h1, h2⟩ := h.slice
      exact ⟨s, by rw [a.slice, h1], by rw [a.r, h2]⟩
    · rcases k with k | ⟨h0, -, p, hp, k⟩
      · exact h.model.kept k
      · have hm := h.model
        rw [h0] at hm
        exact hm.anew ((hE c p hp).mono h.funcs) k

theorem stage_plainfit {W : World K} {H : Heap K} {P : Par K} (hS : Sane W) (hE : Estimates W) {M : List (Part K)}
    {bl : Option (Part K)} {r y e : List K} {c d : Cluster K} {o : Opts} (ho : o.fitbaseline = false)
    (h : Stage W H P M bl r y e c) (hd : fitted W o c = .ok d) : Stage W H P M bl r y e d := by
  obtain ⟨h1, h2⟩ := stage_fit hS hE h hd
  have : d.baseline = bl := by
    rcases h2 with h2 | ⟨h2, -⟩
    · exact h2
    · rw [ho] at h2; simp at h2
  rw [this] at h1
  exact h1

end Verif.Parts.PdfExtract
