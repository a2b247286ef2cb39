import Verif.PdfExtract.Main

/-!
# C81: instances, and two findings about Nyquist sampling
-/

set_option linter.unusedSectionVars false

namespace Verif.Parts.PdfExtract

open Verif.Py Verif.Extraction Verif.Pdf Verif.Parts.Extract Verif.Parts.ModelCluster

/-- Linear interpolation. -/
def lin (v : ℚ) : List ℚ → List ℚ → ℚ
  | x0 :: x1 :: xs, y0 :: y1 :: ys =>
    if v ≤ x0 then y0
    else if v < x1 then y0 + (v - x0) * ((y1 - y0) / (x1 - x0))
    else lin v (x1 :: xs) (y1 :: ys)
  | _, y0 :: _ => y0
  | _, _ => 0

/-- A sampler on ℚ: interpolation is linear, the number π is 3. -/
def linSampler : Sampler ℚ where
  pi := 3
  errorscale _ _ _ _ := 1
  arange a b dr := (List.range ⌈(b - a) / dr⌉.toNat).map (fun k : ℕ => a + k * dr)
  resample x y r := if r = [] then .error .index else .ok (r.map (fun v => lin v x y))
  interp := lin
  ripple _ o := { o with id := o.id + 100 }
  isRipple o := decide (100 ≤ o.id)

theorem linSampler_uniform : Uniform linSampler where
  pi_pos := by decide +kernel
  grid := by
    intro a b dr hdr
    refine ⟨⌈(b - a) / dr⌉.toNat, rfl, fun k => ?_⟩
    rw [Int.lt_toNat, Int.lt_ceil, lt_div_iff₀ hdr]
    push_cast
    constructor <;> intro h <;> linarith
  zero := by intro a b; simp [linSampler]
  len := by
    intro x y r y' h
    simp only [linSampler] at h
    split at h
    · simp at h
    · simp only [Except.ok.injEq] at h; rw [← h]; simp
  nonempty := by
    intro x y r y' h h0
    subst h0
    simp [linSampler] at h

theorem linSampler_ripples : Ripples linSampler :=
  ⟨fun _ _ => rfl, fun _ o => by simp [linSampler], fun _ _ => rfl⟩

/-- Data at 0..6 with qmax 3: the Nyquist interval is 1. -/
def pdfVars (y : List ℚ) : PPX ℚ :=
  { base := { dotVars none none with y := some y }, qmax := some 3, supersample := some 1 }

def pdfObj (y : List ℚ) : PObj ℚ := ⟨pdfVars y, dotHeap, none, none⟩

theorem pdfVars_ready (y : List ℚ) (hy : y.length = 7) : Ready (pdfVars y).base [0, 1, 2, 3, 4, 5, 6] y :=
  ⟨rfl, rfl, ⟨_, rfl, rfl⟩, by intro e h; simp [pdfVars, dotVars] at h, by decide +kernel, by simpa using hy⟩

/-- Functions, positions, heights; the grid. -/
def seen (r : Option (Res Unit × PObj ℚ)) : Option (List (ℕ × List ℚ) × List ℚ) :=
  match r with
  | some (.ok (), o) => o.extracted.map (fun c => (c.model.map (fun p => (p.owner.id, p.pars)), c.r))
  | _ => none

/-- Instance of C81: the hypotheses hold, and `extract` returns two peaks with ripples; the data are those at the
Nyquist interval, without the last point. -/
example : Sane dotWorld ∧ Estimates dotWorld ∧ Uniform linSampler ∧ Ripples linSampler ∧
    dotHeap.peaks dotDef.noPeaks = [] ∧ Ready (pdfVars [0, 3, 5, 0, 0, 0, 0]).base [0, 1, 2, 3, 4, 5, 6] [0, 3, 5, 0, 0, 0, 0] ∧
    seen (extract dotWorld linSampler dotDef 5 (pdfObj [0, 3, 5, 0, 0, 0, 0])) =
      some ([(107, [1, 3]), (107, [2, 5])], [0, 1, 2, 3, 4, 5]) :=
  ⟨dotWorld_sane, dotWorld_estimates, linSampler_uniform, linSampler_ripples, rfl, pdfVars_ready _ rfl, by decide +kernel⟩

/-- Instance of the hypothesis of `c81_terminates`: the zero baseline has no free parameters, and there are two grid
points. -/
example : ∀ P eff r y e a b, From dotDef (pdfVars [0, 3, 5, 0, 0, 0, 0]) P → 0 < P.q → P.nyquist = true →
    FirstData linSampler P eff r y e → r.head? = some a → r.getLast? = some b →
    ((dotHeap.base P.bl).npars false : ℚ) < (b - a) / (linSampler.pi / P.q) := by
  intro P eff r y e a b hP _ _ hF ha hb
  have hx : P.x = [0, 1, 2, 3, 4, 5, 6] := by
    have := hP.x
    simp only [pdfVars, dotVars, Option.some.injEq] at this
    exact this.symm
  have hq : P.q = 3 := by rw [hP.q]; rfl
  have hss : P.ss = 1 := by rw [hP.ss]; rfl
  have h0 : P.x0 = 0 := by have := hP.first; rw [hx] at this; simpa using this.symm
  have h1 : P.x1 = 6 := by have := hP.last; rw [hx] at this; simpa using this.symm
  have hab : P.a = 0 ∧ P.b = 6 := by
    have := hP.range
    rw [h0, h1] at this
    have h2 : rangeOf (pdfVars [0, 3, 5, 0, 0, 0, 0]).base 0 6 = (0, 6) := rfl
    rw [h2, Prod.mk.injEq] at this
    exact this
  have hn : drNyquist linSampler P = 1 := by
    unfold drNyquist; rw [hq]; norm_num [linSampler]
  have hd : drRaw P = 1 := by
    unfold drRaw; rw [hx, h0, h1]; norm_num
  unfold FirstData at hF
  rw [hq, hn, hd, hss, if_neg (by norm_num), if_neg (by norm_num)] at hF
  have hr := hF.grid
  rw [hx, hab.1, hab.2] at hr
  have h3 : inRange ([0, 1, 2, 3, 4, 5, 6] : List ℚ) 0 6 [(0 : ℚ), 1, 2, 3, 4, 5, 6] = [0, 1, 2, 3, 4, 5, 6] := by decide +kernel
  replace hr : r = [0, 1, 2, 3, 4, 5, 6] := hr.trans h3
  rw [hr] at ha hb
  simp only [List.head?_cons, Option.some.injEq] at ha
  have hb' : b = 6 := by simpa using hb.symm
  rw [← ha, hb', hq]
  have : (dotHeap.base P.bl).npars false = 0 := rfl
  rw [this]
  norm_num [linSampler]

/-- **C81, finding.** A positive qmax does not guarantee termination ripples, and a model that explains the data may be
lost: here the initial search finds four peaks, which have too many free parameters for Nyquist sampling; on the
intermediate grid all of them are pruned; the fit of the next pass then estimates a single peak, which never gets
ripples.  (The search on the same data with qmax 0 returns the four peaks.) -/
theorem c81_ripples_lost :
    0 < preferredQmax (pdfVars [0, 3, 5, 0, 2, 0, 1]) ∧
    seen (extract dotWorld linSampler dotDef 5 (pdfObj [0, 3, 5, 0, 2, 0, 1])) =
      some ([(7, [2, 5])], [0, 1, 2, 3, 4, 5]) ∧
    seen (extract dotWorld linSampler dotDef 5 ⟨{ pdfVars [0, 3, 5, 0, 2, 0, 1] with qmax := some 0 }, dotHeap, none, none⟩) =
      some ([(7, [1, 3]), (7, [2, 5]), (7, [4, 2]), (7, [6, 1])], [0, 1, 2, 3, 4, 5, 6]) := by
  refine ⟨by decide +kernel, by decide +kernel, by decide +kernel⟩

/-! ### A loop that does not end -/

/-- A baseline with seven free parameters. -/
def bigHeap : Heap ℚ :=
  { dotHeap with base := fun _ => ⟨⟨0, 7, [], fun _ _ => [], fun _ _ _ => [], fun p _ _ => .ok p⟩, [0, 0, 0, 0, 0, 0, 0], [true, true, true, true, true, true, true], false, true, false⟩ }

def okAnd {α : Type} (r : Res α) (f : α → Bool) : Bool :=
  match r with
  | .ok a => f a
  | .error _ => false

theorem okAnd_true {α : Type} {r : Res α} {f : α → Bool} (h : okAnd r f = true) : ∃ a, r = .ok a ∧ f a = true := by
  cases r with
  | error e => simp [okAnd] at h
  | ok a => exact ⟨a, rfl, h⟩

/-- The pass does not end the loop. -/
def goesOn (P : Par ℚ) (w : ℚ) (c d : Cluster ℚ) : Bool :=
  !decide (interval w (drNyquist linSampler P) (freePars c) = drNyquist linSampler P) && !decide (freePars d = freePars c)

/-- One pass as in `extract`. -/
abbrev bigPass (s : PPX ℚ) (P : Par ℚ) (bl : Option (Part ℚ)) (w : ℚ) (c : Cluster ℚ) : Res (Cluster ℚ) :=
  pass dotWorld bigHeap linSampler dotDef s P bl (interval w (drNyquist linSampler P) (freePars c)) c

/-- Three passes: the first leaves no peak, the second finds one, the third leaves none. -/
def cycle (s : PPX ℚ) (v : Par ℚ × Grid ℚ × Cluster ℚ) : Bool :=
  decide (0 < v.1.q) && v.1.nyquist && okAnd (widthOf v.2.1) (fun w =>
    let a : Cluster ℚ := { v.2.2 with model := v.2.2.model.map (wrap linSampler v.1.q) }
    okAnd (bigPass s v.1 v.2.2.baseline w a) (fun b => b.model.isEmpty && goesOn v.1 w a b &&
      okAnd (bigPass s v.1 v.2.2.baseline w b) (fun c => goesOn v.1 w b c &&
        okAnd (bigPass s v.1 v.2.2.baseline w c) (fun d => d.model.isEmpty && goesOn v.1 w c d))))

def bigObj : PObj ℚ := ⟨pdfVars [0, 3, 0, 0, 0, 0, 0], bigHeap, none, none⟩

def settled : PPX ℚ := (pdefaultvars linSampler.pi dotDef bigObj.vars).2

theorem passes_congr {W : World ℚ} {H : Heap ℚ} {S : Sampler ℚ} {D : Defaults ℚ} {s : PPX ℚ} {P : Par ℚ}
    {bl : Option (Part ℚ)} {c d : Cluster ℚ} (hm : c.model = d.model) (hb : c.baseline = d.baseline) :
    freePars c = freePars d ∧ ∀ dr, pass W H S D s P bl dr c = pass W H S D s P bl dr d := by
  constructor
  · unfold freePars; rw [hm, hb]
  · intro dr; unfold pass; rw [hm]

theorem goesOn_true {P : Par ℚ} {w : ℚ} {c d : Cluster ℚ} (h : goesOn P w c d = true) :
    interval w (drNyquist linSampler P) (freePars c) ≠ drNyquist linSampler P ∧ freePars d ≠ freePars c := by
  simpa [goesOn] using h

/-- A pass that does not end the loop. -/
theorem passes_step {s : PPX ℚ} {P : Par ℚ} {bl : Option (Part ℚ)} {w : ℚ} {c d : Cluster ℚ} (n : ℕ)
    (hp : bigPass s P bl w c = .ok d) (hg : goesOn P w c d = true) :
    nyquistPasses dotWorld bigHeap linSampler dotDef s P bl w (n + 1) c =
      nyquistPasses dotWorld bigHeap linSampler dotDef s P bl w n d := by
  obtain ⟨h1, h2⟩ := goesOn_true hg
  rw [nyquistPasses]
  unfold bigPass at hp
  rw [hp]
  simp only
  rw [if_neg h1, if_neg h2]

/-- **C81, finding.** The loop need not end: here the baseline has more free parameters than there are Nyquist
intervals, and passes that remove the last peak alternate with passes whose fit estimates a peak where there is none. -/
theorem c81_may_not_end : ∃ (W : World ℚ) (S : Sampler ℚ) (D : Defaults ℚ) (o : PObj ℚ) (x y : List ℚ),
    Sane W ∧ Estimates W ∧ Uniform S ∧ Ripples S ∧ o.heap.peaks D.noPeaks = [] ∧ Ready o.vars.base x y ∧
    (∀ v, o.vars.supersample = some v → 0 < v) ∧ ∀ n, extract W S D n o = none := by
  refine ⟨dotWorld, linSampler, dotDef, bigObj, _, _, dotWorld_sane, dotWorld_estimates, linSampler_uniform,
    linSampler_ripples, rfl, pdfVars_ready _ rfl, ?_, fun n => ?_⟩
  · intro v hv
    simp only [bigObj, pdfVars, Option.some.injEq] at hv
    rw [← hv]; norm_num
  have hd : pdefaultvars linSampler.pi dotDef bigObj.vars = (.ok (), settled) := by
    have h : okAnd (pdefaultvars linSampler.pi dotDef bigObj.vars).1 (fun _ => true) = true := by decide +kernel
    obtain ⟨⟨⟩, h, -⟩ := okAnd_true h
    exact Prod.ext h rfl
  have hc : okAnd (begun dotWorld bigHeap linSampler dotDef settled) (cycle settled) = true := by decide +kernel
  obtain ⟨⟨P, g, c⟩, hb, hc⟩ := okAnd_true hc
  have hP' : ∃ P', complete settled = .ok P' := by
    unfold begun at hb
    cases hP : complete settled with
    | error e => rw [hP] at hb; simp [bind, Except.bind] at hb
    | ok P => exact ⟨P, rfl⟩
  obtain ⟨P', hP'⟩ := hP'
  have hP := complete_ok hP'
  obtain ⟨rfl, -⟩ := begun_steps hP hb
  have he : SettledEff P.eff := by rw [← hP.eff]; exact pdefault_settled hd
  unfold cycle at hc
  simp only [Bool.and_eq_true, decide_eq_true_eq] at hc
  obtain ⟨⟨hq, hn⟩, hc⟩ := hc
  obtain ⟨w, hw, hc⟩ := okAnd_true hc
  obtain ⟨b, hb1, hc⟩ := okAnd_true hc
  simp only [Bool.and_eq_true] at hc
  obtain ⟨⟨hb2, hb3⟩, hc⟩ := hc
  obtain ⟨d, hd1, hc⟩ := okAnd_true hc
  simp only [Bool.and_eq_true] at hc
  obtain ⟨hd2, hc⟩ := hc
  obtain ⟨e, he1, hc⟩ := okAnd_true hc
  simp only [Bool.and_eq_true] at hc
  obtain ⟨he2, he3⟩ := hc
  have gr : ∀ c : Cluster ℚ, Grown (Supplied dotWorld.func (bigHeap.funcs P.pf)) c.model c.model := fun c => Or.inl (kept_refl _)
  obtain ⟨_, _, sb, _, _⟩ := pass_ok (M := _) dotWorld_sane dotWorld_estimates hP he (gr _) rfl hb1
  obtain ⟨_, _, sd, _, _⟩ := pass_ok dotWorld_sane dotWorld_estimates hP he (gr _) sb.base hd1
  obtain ⟨_, _, se, _, _⟩ := pass_ok dotWorld_sane dotWorld_estimates hP he (gr _) sd.base he1
  have key : ∀ (n : ℕ) (k : Cluster ℚ), k.model = [] → k.baseline = c.baseline →
      nyquistPasses dotWorld bigHeap linSampler dotDef settled P c.baseline w n k = none := by
    intro n
    induction n using Nat.strong_induction_on with
    | _ n ih =>
      intro k hk1 hk2
      match n with
      | 0 => rfl
      | 1 =>
        obtain ⟨f1, f2⟩ := passes_congr (W := dotWorld) (H := bigHeap) (S := linSampler) (D := dotDef) (s := settled) (P := P)
          (bl := c.baseline) (hk1.trans (List.isEmpty_iff.1 hb2).symm) (hk2.trans sb.base.symm)
        rw [passes_step 0 (d := d) (by unfold bigPass; rw [f1, f2]; exact hd1) (by unfold goesOn at hd2 ⊢; rw [f1]; exact hd2)]
        rfl
      | n + 2 =>
        obtain ⟨f1, f2⟩ := passes_congr (W := dotWorld) (H := bigHeap) (S := linSampler) (D := dotDef) (s := settled) (P := P)
          (bl := c.baseline) (hk1.trans (List.isEmpty_iff.1 hb2).symm) (hk2.trans sb.base.symm)
        rw [passes_step (n + 1) (d := d) (by unfold bigPass; rw [f1, f2]; exact hd1) (by unfold goesOn at hd2 ⊢; rw [f1]; exact hd2),
          passes_step n he1 he3]
        exact ih n (by omega) e (List.isEmpty_iff.1 he2) se.base
  unfold extract
  rw [hd]
  simp only
  rw [Option.map_eq_none_iff]
  unfold extracted
  have hb' : begun dotWorld bigObj.heap linSampler dotDef settled = .ok (P, g, c) := hb
  rw [hb']
  simp only
  rw [Option.map_eq_none_iff]
  unfold refine
  rw [if_pos hq, if_pos hn, hw]
  simp only
  cases n with
  | zero => rfl
  | succ n =>
    have := passes_step n hb1 hb3
    exact this.trans (key n b (List.isEmpty_iff.1 hb2) sb.base)

end Verif.Parts.PdfExtract
