import Verif.Pdf.ResetModel
import Verif.Pdf.Vars

/-!
# C91: restoring the defaults of named variables
-/

namespace Verif.Pdf

open Verif.Py Verif.Extraction

set_option linter.unusedSectionVars false

variable {K : Type} [Field K] [LinearOrder K] [IsStrictOrderedRing K]

/-- A value that is forgotten when its name is in the list. -/
def unlessNamed {α : Type} (name : String) (args : List String) (v : Option α) : Option α := if name ∈ args then none else v

/-- The object in which the named variables are not set. -/
def forget (args : List String) (s : PX K) : PX K :=
  { s with
    cres := unlessNamed "cres" args s.cres
    effdy := if "effective_dy" ∈ args then .unset else s.effdy
    pf := unlessNamed "pf" args s.pf
    rng := unlessNamed "rng" args s.rng
    baseline := unlessNamed "baseline" args s.baseline
    errorMethod := unlessNamed "error_method" args s.errorMethod
    initialPeaks := unlessNamed "initial_peaks" args s.initialPeaks }

theorem ends_data {t : PX K} {x : List K} {x0 x1 : K} (ht : t.x = some x) (h0 : x.head? = some x0)
    (h1 : x.getLast? = some x1) : ends t = .ok (x0, x1) := by
  unfold ends
  rw [ht]
  simp only
  rw [h0, h1]

theorem rCres_data (args : List String) (s : PX K) (x : List K) (x0 x1 : K) (hx : s.x = some x)
    (h0 : x.head? = some x0) (h1 : x.getLast? = some x1) :
    rCres args s = (.ok (), { s with cres := some ((unlessNamed "cres" args s.cres).getD (4 * (x1 - x0) / x.length)) }) := by
  obtain ⟨sx, sy, sdx, sdy, seff, srng, spf, sip, sbl, scr, sem⟩ := s
  unfold rCres unlessNamed
  rw [ends_data hx h0 h1]
  simp only at hx
  subst hx
  by_cases h : "cres" ∈ args
  · simp [h]
  · cases scr <;> simp [h]

theorem rEffdy_data (args : List String) (s : PX K) (x y dy : List K) (hx : s.x = some x) (hy : s.y = some y)
    (hdy : s.dy = some dy) (hne : y ≠ []) :
    rEffdy args s = (.ok (), { s with effdy := effOf (if "effective_dy" ∈ args then .unset else s.effdy) x y dy }) := by
  have fr : freshEff s = (.ok (), { s with effdy := effOf .unset x y dy }) := by
    have := defEffdy_ok { s with effdy := .unset } x y dy hx hy hdy hne
    unfold defEffdy at this
    unfold freshEff
    simp only [hx, hy, hdy] at this ⊢
    by_cases ha : dy.all (fun v => decide (0 < v)) = true
    · simp only [ha, if_true, effOf]
    · simp only [ha, effOf]
      obtain ⟨b, l, rfl⟩ := List.exists_cons_of_ne_nil hne
      rfl
  unfold rEffdy
  by_cases h : "effective_dy" ∈ args
  · simp [h, fr]
  · simp only [h, or_false, if_false]
    obtain ⟨sx, sy, sdx, sdy, seff, srng, spf, sip, sbl, scr, sem⟩ := s
    simp only at hx
    subst hx
    cases seff with
    | unset => simp [fr]
    | scalar v =>
      simp only [reduceCtorEq, if_false, effOf]
      by_cases hv : 0 < v
      · simp [hv]
      · simp [hv]
    | array l =>
      simp [effOf]

theorem rPf_data (D : Defaults K) (args : List String) (s : PX K) (x : List K) (x0 x1 : K) (hx : s.x = some x)
    (h0 : x.head? = some x0) (h1 : x.getLast? = some x1) (hw : x0 < x1) :
    rPf D args s = (.ok (), { s with pf := some ((unlessNamed "pf" args s.pf).getD (D.gaussianOverR (x1 - x0))) }) := by
  obtain ⟨sx, sy, sdx, sdy, seff, srng, spf, sip, sbl, scr, sem⟩ := s
  unfold rPf unlessNamed
  rw [ends_data hx h0 h1]
  have hn : ¬ x1 - x0 ≤ 0 := not_le.2 (sub_pos.2 hw)
  by_cases h : "pf" ∈ args
  · simp only [h, or_true, if_true, if_neg hn, Option.getD_none]
  · cases spf with
    | none => simp only [h, Option.isNone_none, true_or, if_true, if_neg hn, if_false, Option.getD_none]
    | some c => simp [h]

theorem rRng_data (args : List String) (s : PX K) (x : List K) (x0 x1 : K) (hx : s.x = some x)
    (h0 : x.head? = some x0) (h1 : x.getLast? = some x1) :
    rRng args s = (.ok (), { s with
      rng := some (some (((unlessNamed "rng" args s.rng).bind Prod.fst).getD x0),
        some (((unlessNamed "rng" args s.rng).bind Prod.snd).getD x1)) }) := by
  obtain ⟨sx, sy, sdx, sdy, seff, srng, spf, sip, sbl, scr, sem⟩ := s
  unfold rRng unlessNamed
  rw [ends_data hx h0 h1]
  by_cases h : "rng" ∈ args
  · simp [h]
  · rcases srng with _ | ⟨_ | a, _ | b⟩ <;> simp [h]

theorem rRest_eq (D : Defaults K) (args : List String) (s : PX K) :
    rRest D args s = (.ok (), { s with
      errorMethod := some ((unlessNamed "error_method" args s.errorMethod).getD D.aic)
      initialPeaks := some ((unlessNamed "initial_peaks" args s.initialPeaks).getD D.noPeaks) }) := by
  obtain ⟨sx, sy, sdx, sdy, seff, srng, spf, sip, sbl, scr, sem⟩ := s
  unfold rRest unlessNamed
  by_cases h : "error_method" ∈ args <;> by_cases h' : "initial_peaks" ∈ args <;> cases sem <;> cases sip <;>
    simp [h, h']

/-- The baseline step is the one without names, unlessNamed the name is given for a baseline function. -/
theorem rBaseline_data (D : Defaults K) (args : List String) (s : PX K)
    (hb : "baseline" ∈ args → ∀ f, s.baseline ≠ some (.func f)) :
    andThen (estBaseline D s) (rBaseline D args) = defBaseline D { s with baseline := unlessNamed "baseline" args s.baseline } := by
  obtain ⟨sx, sy, sdx, sdy, seff, srng, spf, sip, sbl, scr, sem⟩ := s
  unfold estBaseline rBaseline unlessNamed
  by_cases h : "baseline" ∈ args
  · rcases sbl with _ | ⟨f | i⟩
    · simp [h, andThen, defBaseline]
    · exact absurd rfl (hb h f)
    · simp [h, andThen, defBaseline]
  · rcases sbl with _ | ⟨f | i⟩
    · simp [h, andThen, defBaseline]
    · simp only [h, if_false, defBaseline]
      generalize selected (K := K) _ = r
      rcases r with e | ⟨xs, ys⟩
      · rfl
      · simp only
        generalize D.estimate f xs ys = q
        rcases q with e | b
        · cases e <;> simp [andThen]
        · simp [andThen]
    · simp [h, andThen, defBaseline]

theorem andThen_assoc (r : Res Unit × PX K) (f g : PX K → Res Unit × PX K) :
    andThen (andThen r f) g = andThen r (fun s => andThen (f s) g) := by
  rcases r with ⟨_ | _, s⟩ <;> rfl

/-- The object before the baseline step. -/
def midReset (D : Defaults K) (args : List String) (s : PX K) (x y dy : List K) (x0 x1 : K) : PX K :=
  { s with
    cres := some ((unlessNamed "cres" args s.cres).getD (4 * (x1 - x0) / x.length))
    effdy := effOf (if "effective_dy" ∈ args then .unset else s.effdy) x y dy
    pf := some ((unlessNamed "pf" args s.pf).getD (D.gaussianOverR (x1 - x0)))
    rng := some (some (((unlessNamed "rng" args s.rng).bind Prod.fst).getD x0), some (((unlessNamed "rng" args s.rng).bind Prod.snd).getD x1)) }

theorem resetvars_mid (D : Defaults K) (args : List String) (s : PX K) (x y dy : List K) (x0 x1 : K)
    (h : HasData s x y dy x0 x1) :
    resetvars D args s = andThen (andThen (estBaseline D (midReset D args s x y dy x0 x1)) (rBaseline D args)) (rRest D args) := by
  unfold resetvars
  rw [rCres_data args s x x0 x1 h.hx h.first h.last]
  simp only [andThen]
  rw [rEffdy_data args _ x y dy (by exact h.hx) (by exact h.hy) (by exact h.hdy) h.ne]
  simp only
  rw [rPf_data D args _ x x0 x1 (by exact h.hx) h.first h.last h.wide]
  simp only
  rw [rRng_data args _ x x0 x1 (by exact h.hx) h.first h.last]
  rfl

theorem defaultvars_forget (D : Defaults K) (args : List String) (s : PX K) (x y dy : List K) (x0 x1 : K)
    (h : HasData s x y dy x0 x1) :
    defaultvars D (forget args s) = andThen (defBaseline D { midReset D args s x y dy x0 x1 with
        baseline := unlessNamed "baseline" args s.baseline
        errorMethod := unlessNamed "error_method" args s.errorMethod
        initialPeaks := unlessNamed "initial_peaks" args s.initialPeaks }) (fun s => (.ok (), defRest D s)) := by
  unfold defaultvars
  rw [steps4 D (forget args s) x y dy x0 x1 ⟨h.hx, h.hy, h.hdy, h.leny, h.lendy, h.first, h.last, h.wide⟩]
  rfl

theorem defBaseline_rest (D : Defaults K) (t : PX K) (em ip : Option ℕ) :
    (defBaseline D { t with errorMethod := em, initialPeaks := ip }) =
      ((defBaseline D t).1, { (defBaseline D t).2 with errorMethod := em, initialPeaks := ip }) ∧
    (defBaseline D t).2.errorMethod = t.errorMethod ∧ (defBaseline D t).2.initialPeaks = t.initialPeaks := by
  obtain ⟨sx, sy, sdx, sdy, seff, srng, spf, sip, sbl, scr, sem⟩ := t
  unfold defBaseline
  rcases sbl with _ | ⟨f | i⟩
  · exact ⟨rfl, rfl, rfl⟩
  · have hs : selected (⟨sx, sy, sdx, sdy, seff, srng, spf, ip, some (.func f), scr, em⟩ : PX K) =
        selected ⟨sx, sy, sdx, sdy, seff, srng, spf, sip, some (.func f), scr, sem⟩ := rfl
    simp only [hs]
    generalize selected (K := K) _ = r
    rcases r with e | ⟨xs, ys⟩
    · exact ⟨rfl, rfl, rfl⟩
    · simp only
      generalize D.estimate f xs ys = q
      rcases q with e | b
      · cases e <;> exact ⟨rfl, rfl, rfl⟩
      · exact ⟨rfl, rfl, rfl⟩
  · exact ⟨rfl, rfl, rfl⟩

/-- **C91.** `PeakExtraction.defaultvars(*names)` on an object with data: the named variables get the values they would
get if they had never been set, all others are kept (or get their default if they are not set): the outcome is that of
`defaultvars()` on the object in which the named variables are not set.  (If it raises, the exception is the same.) -/
theorem c91_base (D : Defaults K) (args : List String) (s : PX K) (x y dy : List K) (x0 x1 : K)
    (h : HasData s x y dy x0 x1) (hb : "baseline" ∈ args → ∀ f, s.baseline ≠ some (.func f)) :
    (resetvars D args s).1 = (defaultvars D (forget args s)).1 ∧
    ((defaultvars D (forget args s)).1 = .ok () → resetvars D args s = defaultvars D (forget args s)) := by
  rw [resetvars_mid D args s x y dy x0 x1 h, defaultvars_forget D args s x y dy x0 x1 h]
  generalize hm : midReset D args s x y dy x0 x1 = m
  have mb : m.baseline = s.baseline := by rw [← hm]; rfl
  have me : m.errorMethod = s.errorMethod := by rw [← hm]; rfl
  have mi : m.initialPeaks = s.initialPeaks := by rw [← hm]; rfl
  rw [rBaseline_data D args m (by rw [mb]; exact hb), mb]
  obtain ⟨e1, e2, e3⟩ := defBaseline_rest D { m with baseline := unlessNamed "baseline" args s.baseline }
    (unlessNamed "error_method" args s.errorMethod) (unlessNamed "initial_peaks" args s.initialPeaks)
  simp only at e1
  rw [e1]
  replace e2 := e2.trans me
  replace e3 := e3.trans mi
  generalize defBaseline D { m with baseline := unlessNamed "baseline" args s.baseline } = r at e2 e3 ⊢
  rcases r with ⟨_ | _, t⟩
  · refine ⟨rfl, ?_⟩
    intro h'
    simp [andThen] at h'
  · simp only [andThen, rRest_eq, defRest]
    rw [show t.errorMethod = _ from e2, show t.initialPeaks = _ from e3]
    exact ⟨trivial, fun _ => rfl⟩

/-- **C91.** Naming `baseline` when it is a baseline function: its parameters are estimated all the same; an unexpected
exception of the estimation makes the call fail, otherwise the estimate is thrown away. -/
theorem c91_base_function (D : Defaults K) (args : List String) (s : PX K) (x y dy : List K) (x0 x1 : K)
    (h : HasData s x y dy x0 x1) (hn : "baseline" ∈ args) (f : ℕ) (hf : s.baseline = some (.func f)) (xs ys : List K)
    (hs : selected (midReset D args s x y dy x0 x1) = .ok (xs, ys)) :
    ((∀ e, D.estimate f xs ys = .error e → e = .estimation ∨ e = .notImplemented) →
      resetvars D args s = defaultvars D (forget args s) ∧ (resetvars D args s).1 = .ok ()) ∧
    (∀ e, D.estimate f xs ys = .error e → e ≠ .estimation → e ≠ .notImplemented →
      (resetvars D args s).1 = .error e ∧ (defaultvars D (forget args s)).1 = .ok ()) := by
  rw [resetvars_mid D args s x y dy x0 x1 h, defaultvars_forget D args s x y dy x0 x1 h]
  generalize hm : midReset D args s x y dy x0 x1 = m at hs ⊢
  have mb : m.baseline = some (.func f) := by rw [← hm, ← hf]; rfl
  have me : m.errorMethod = s.errorMethod := by rw [← hm]; rfl
  have mi : m.initialPeaks = s.initialPeaks := by rw [← hm]; rfl
  have hu : unlessNamed "baseline" args s.baseline = none := by simp [unlessNamed, hn]
  rw [hu]
  unfold estBaseline
  simp only [mb, hs]
  constructor
  · intro hq
    rcases hd : D.estimate f xs ys with e | b
    · rcases hq e hd with rfl | rfl <;>
        simp [andThen, rBaseline, hn, defBaseline, defRest, rRest_eq, me, mi]
    · simp [andThen, rBaseline, hn, defBaseline, defRest, rRest_eq, me, mi]
  · intro e hd h1 h2
    rw [hd]
    cases e <;> simp [andThen, defBaseline] at h1 h2 ⊢

/-- **C91.** Without names it is `defaultvars()`, with or without data. -/
theorem c91_base_nil (D : Defaults K) (s : PX K) : resetvars D [] s = defaultvars D s := by
  have e1 : ∀ s : PX K, rCres [] s = defCres s := by
    intro s
    unfold rCres defCres
    generalize ends s = r
    cases hc : s.cres <;> cases hx : s.x <;> rcases r with e | ⟨a, b⟩ <;> simp
  have e2 : ∀ s : PX K, rEffdy [] s = defEffdy s := by
    intro s
    obtain ⟨sx, sy, sdx, sdy, seff, srng, spf, sip, sbl, scr, sem⟩ := s
    unfold rEffdy defEffdy freshEff
    cases seff with
    | unset =>
      cases sx with
      | none => simp
      | some x =>
        cases sy with
        | none => simp
        | some y =>
          cases sdy with
          | none => simp
          | some dy =>
            simp only [true_or, if_true]
            cases spread y <;> rfl
    | scalar v => cases sx <;> simp
    | array l => simp
  have e3 : ∀ s : PX K, rPf D [] s = defPf D s := by
    intro s
    unfold rPf defPf
    generalize ends s = r
    cases hc : s.pf <;> rcases r with e | ⟨a, b⟩ <;> simp
  have e4 : ∀ s : PX K, rRng [] s = defRng s := by
    intro s
    obtain ⟨sx, sy, sdx, sdy, seff, srng, spf, sip, sbl, scr, sem⟩ := s
    unfold rRng defRng
    generalize ends (K := K) _ = r
    rcases srng with _ | ⟨_ | a, _ | b⟩ <;> rcases r with e | ⟨a, b⟩ <;> simp
  have e5 : ∀ s : PX K, andThen (estBaseline D s) (rBaseline D []) = defBaseline D s := by
    intro s
    rw [rBaseline_data D [] s (by simp)]
    simp [unlessNamed]
  have e6 : ∀ s : PX K, rRest D [] s = (.ok (), defRest D s) := by
    intro s
    rw [rRest_eq]
    simp [unlessNamed, defRest]
  unfold resetvars defaultvars
  rw [funext e2, funext e3, funext e4, funext e6, e1]
  congr 1
  rw [andThen_assoc, funext e5]

/-! ### `PDFPeakExtraction` -/

/-- The object in which the named variables are not set; `dg` is a name of `effective_dy`. -/
def pforget (args : List String) (s : PPX K) : PPX K :=
  { s with
    base := forget (if "dg" ∈ args then "effective_dy" :: args else args) s.base
    qmax := unlessNamed "qmax" args s.qmax
    nyquist := unlessNamed "nyquist" args s.nyquist
    scale := unlessNamed "scale" args s.scale
    supersample := unlessNamed "supersample" args s.supersample }

theorem rQmax_eq (args : List String) (s : PPX K) :
    rQmax args s = { s with qmax := some (preferredQmax { s with qmax := unlessNamed "qmax" args s.qmax }) } := by
  obtain ⟨b, q, n, sc, ss, qr, qd⟩ := s
  unfold rQmax preferredQmax unlessNamed
  by_cases h : "qmax" ∈ args
  · cases qr <;> cases qd <;> simp [h]
  · cases q <;> cases qr <;> cases qd <;> simp [h]

theorem rSampling_eq (args : List String) (s : PPX K) (q : K) (hq : s.qmax = some q) :
    rSampling args s = { s with
      nyquist := some ((unlessNamed "nyquist" args s.nyquist).getD (decide (0 < q)))
      scale := some ((unlessNamed "scale" args s.scale).getD false)
      supersample := some ((unlessNamed "supersample" args s.supersample).getD 4) } := by
  obtain ⟨b, q', n, sc, ss, qr, qd⟩ := s
  simp only at hq
  subst hq
  unfold rSampling unlessNamed qPositive
  by_cases h : "nyquist" ∈ args <;> by_cases h' : "scale" ∈ args <;> by_cases h'' : "supersample" ∈ args <;>
    cases n <;> cases sc <;> cases ss <;> simp [h, h', h'']

theorem mem_erase_other {a b : String} (h : a ≠ b) (l : List String) : a ∈ l.erase b ↔ a ∈ l :=
  List.mem_erase_of_ne h

theorem mem_dropSampling (a : String) (args : List String) (h1 : a ≠ "supersample") (h2 : a ≠ "scale")
    (h3 : a ≠ "nyquist") (h4 : a ≠ "qmax") : (a ∈ dropSampling args ↔ a ∈ args) ∧
      (dropSampling args).count a = args.count a := by
  unfold dropSampling dropName
  constructor
  · rw [mem_erase_other h1, mem_erase_other h2, mem_erase_other h3, mem_erase_other h4]
  · rw [List.count_erase_of_ne h1, List.count_erase_of_ne h2, List.count_erase_of_ne h3, List.count_erase_of_ne h4]

/-- The names that the base class gets: `cres` and `pf` once less if they were dealt with. -/
theorem names_passed (pi : K) (D : Defaults K) (args : List String) (s : PPX K) :
    (∀ a, a ≠ "supersample" → a ≠ "scale" → a ≠ "nyquist" → a ≠ "qmax" → a ≠ "cres" → a ≠ "pf" →
      (a ∈ (rPdfPf D args (rPdfCres pi args (dropSampling args, s))).1 ↔ a ∈ args)) ∧
    ((rPdfPf D args (rPdfCres pi args (dropSampling args, s))).1.count "cres" =
      if qPositive s then args.count "cres" - 1 else args.count "cres") ∧
    ((rPdfPf D args (rPdfCres pi args (dropSampling args, s))).1.count "pf" = args.count "pf" - 1) := by
  have hc := (mem_dropSampling "cres" args (by decide) (by decide) (by decide) (by decide)).2
  have hp := (mem_dropSampling "pf" args (by decide) (by decide) (by decide) (by decide)).2
  have h1 : (∀ a, a ≠ "supersample" → a ≠ "scale" → a ≠ "nyquist" → a ≠ "qmax" → a ≠ "cres" →
      (a ∈ (rPdfCres pi args (dropSampling args, s)).1 ↔ a ∈ args)) ∧
      ((rPdfCres pi args (dropSampling args, s)).1.count "cres" =
        if qPositive s then args.count "cres" - 1 else args.count "cres") ∧
      ((rPdfCres pi args (dropSampling args, s)).1.count "pf" = args.count "pf") := by
    unfold rPdfCres dropName
    by_cases hq : qPositive s = true
    · by_cases hm : "cres" ∈ args
      · rw [if_pos (by exact ⟨Or.inr hm, hq⟩)]
        simp only [if_pos hm, if_pos hq]
        refine ⟨fun a a1 a2 a3 a4 a5 => ?_, ?_, ?_⟩
        · rw [mem_erase_other a5]
          exact (mem_dropSampling a args a1 a2 a3 a4).1
        · rw [List.count_erase_self, hc]
        · rw [List.count_erase_of_ne (by decide), hp]
      · have z : args.count "cres" = 0 := List.count_eq_zero.2 hm
        have hb : ∀ b : PPX K, (if (s.base.cres.isNone = true ∨ "cres" ∈ args) ∧ qPositive s = true then
            ((if "cres" ∈ args then (dropSampling args).erase "cres" else dropSampling args), b)
            else (dropSampling args, s)).1 = dropSampling args := by
          intro b
          split <;> simp
        simp only
        rw [hb]
        refine ⟨fun a a1 a2 a3 a4 a5 => (mem_dropSampling a args a1 a2 a3 a4).1, ?_, hp⟩
        rw [hc, z]
        simp
    · rw [if_neg (by simp [hq])]
      refine ⟨fun a a1 a2 a3 a4 a5 => (mem_dropSampling a args a1 a2 a3 a4).1, ?_, hp⟩
      rw [if_neg hq]
      exact hc
  generalize rPdfCres pi args (dropSampling args, s) = p at h1 ⊢
  obtain ⟨i1, i2, i3⟩ := h1
  unfold rPdfPf dropName
  by_cases hm : "pf" ∈ args
  · rw [if_pos (Or.inr hm)]
    simp only [if_pos hm]
    refine ⟨fun a a1 a2 a3 a4 a5 a6 => ?_, ?_, ?_⟩
    · rw [mem_erase_other a6]
      exact i1 a a1 a2 a3 a4 a5
    · rw [List.count_erase_of_ne (by decide), i2]
    · rw [List.count_erase_self, i3]
  · have z : args.count "pf" = 0 := List.count_eq_zero.2 hm
    have hb : (if p.2.base.pf.isNone = true ∨ "pf" ∈ args then
        ((if "pf" ∈ args then p.1.erase "pf" else p.1), { p.2 with base := { p.2.base with pf := some (D.gaussianOverR (7 / 10)) } })
        else p).1 = p.1 := by
      split <;> simp
    rw [hb]
    refine ⟨fun a a1 a2 a3 a4 a5 _ => i1 a a1 a2 a3 a4 a5, i2, ?_⟩
    rw [i3, z]

/-- The variables of the base class before its own defaults. -/
def midPdf (pi q : K) (D : Defaults K) (args : List String) (b : PX K) : PX K :=
  { b with
    cres := if (b.cres.isNone ∨ "cres" ∈ args) ∧ 0 < q then some (pi / q) else b.cres
    pf := some ((unlessNamed "pf" args b.pf).getD (D.gaussianOverR (7 / 10))) }

theorem presetvars_eq (pi : K) (D : Defaults K) (args : List String) (s : PPX K) (q : K)
    (hq : preferredQmax { s with qmax := unlessNamed "qmax" args s.qmax } = q) :
    ∃ N : List String,
      presetvars pi D args s = ((resetvars D N (midPdf pi q D args s.base)).1,
        { s with
          base := (resetvars D N (midPdf pi q D args s.base)).2
          qmax := some q
          nyquist := some ((unlessNamed "nyquist" args s.nyquist).getD (decide (0 < q)))
          scale := some ((unlessNamed "scale" args s.scale).getD false)
          supersample := some ((unlessNamed "supersample" args s.supersample).getD 4) }) ∧
      (∀ a ∈ ["rng", "baseline", "error_method", "initial_peaks"], (a ∈ N ↔ a ∈ args)) ∧
      ("effective_dy" ∈ N ↔ "effective_dy" ∈ args ∨ "dg" ∈ args) ∧
      ("cres" ∈ N ↔ "cres" ∈ args ∧ (0 < q → 2 ≤ args.count "cres")) ∧
      ("pf" ∈ N ↔ 2 ≤ args.count "pf") := by
  have e : rSampling args (rQmax args s) = { s with
      qmax := some q
      nyquist := some ((unlessNamed "nyquist" args s.nyquist).getD (decide (0 < q)))
      scale := some ((unlessNamed "scale" args s.scale).getD false)
      supersample := some ((unlessNamed "supersample" args s.supersample).getD 4) } := by
    rw [rQmax_eq, hq, rSampling_eq args _ q rfl]
  obtain ⟨n1, n2, n3⟩ := names_passed pi D args (rSampling args (rQmax args s))
  have hp : qPositive (rSampling args (rQmax args s)) = decide (0 < q) := by rw [e]; rfl
  rw [hp] at n2
  have mem_count : ∀ (l : List String) a, a ∈ l ↔ 0 < l.count a := fun l a => List.count_pos_iff.symm
  have al : ∀ a l, a ≠ "effective_dy" → (a ∈ addAlias args l ↔ a ∈ l) := by
    intro a l ha
    unfold addAlias
    split
    · simp [ha]
    · rfl
  refine ⟨addAlias args (rPdfPf D args (rPdfCres pi args (dropSampling args, rSampling args (rQmax args s)))).1, ?_, ?_, ?_, ?_, ?_⟩
  · have hb : (rPdfPf D args (rPdfCres pi args (dropSampling args, rSampling args (rQmax args s)))).2 =
        { s with
          base := midPdf pi q D args s.base
          qmax := some q
          nyquist := some ((unlessNamed "nyquist" args s.nyquist).getD (decide (0 < q)))
          scale := some ((unlessNamed "scale" args s.scale).getD false)
          supersample := some ((unlessNamed "supersample" args s.supersample).getD 4) } := by
      unfold rPdfPf rPdfCres midPdf
      rw [e]
      have hp' : ∀ (b : PX K) (x1 : Option Bool) x2 x3 x4 x5, qPositive (⟨b, some q, x1, x2, x3, x4, x5⟩ : PPX K) = decide (0 < q) :=
        fun _ _ _ _ _ _ => rfl
      simp only [hp', decide_eq_true_eq]
      by_cases hc : (s.base.cres.isNone = true ∨ "cres" ∈ args) ∧ 0 < q
      · simp only [if_pos hc]
        unfold unlessNamed
        by_cases hf : "pf" ∈ args
        · simp [hf]
        · cases hpf : s.base.pf with
          | none => simp [hf]
          | some v => simp [hf]
      · simp only [if_neg hc]
        unfold unlessNamed
        by_cases hf : "pf" ∈ args
        · simp [hf]
        · cases hpf : s.base.pf with
          | none => simp [hf]
          | some v =>
            simp only [hf, Option.isNone_some, Bool.false_eq_true, or_self, if_false, Option.getD_some]
            rw [← hpf]
    unfold presetvars
    simp only
    rw [hb]
  · intro a ha
    simp only [List.mem_cons, List.not_mem_nil, or_false] at ha
    rcases ha with rfl | rfl | rfl | rfl <;>
      rw [al _ _ (by decide), n1 _ (by decide) (by decide) (by decide) (by decide) (by decide) (by decide)]
  · have := n1 "effective_dy" (by decide) (by decide) (by decide) (by decide) (by decide) (by decide)
    unfold addAlias
    by_cases h1 : "dg" ∈ args <;> by_cases h2 : "effective_dy" ∈ args <;> simp [h1, h2, this]
  · rw [al _ _ (by decide), mem_count, n2, mem_count]
    by_cases hq0 : 0 < q
    · simp only [hq0, decide_true, if_true, forall_const]
      omega
    · simp [hq0]
  · rw [al _ _ (by decide), mem_count, n3]
    omega

theorem preferred_forget (args : List String) (s : PPX K) :
    preferredQmax { s with qmax := unlessNamed "qmax" args s.qmax } = preferredQmax (pforget args s) := rfl

theorem chooseQmax_eq (s : PPX K) : chooseQmax s = preferredQmax s := by
  unfold preferredQmax chooseQmax
  cases s.qmax <;> cases s.qmaxReported <;> cases s.qmaxFromData <;> rfl

/-- **C91.** `PDFPeakExtraction.defaultvars(*names)` on an object with data, `cres` and `pf` not named more than once: the
outcome is that of `defaultvars()` on the object in which the named variables are not set; `dg` is a name of
`effective_dy`. -/
theorem c91_pdf (pi : K) (D : Defaults K) (args : List String) (s : PPX K) (x y dy : List K) (x0 x1 : K)
    (h : HasData s.base x y dy x0 x1) (hb : "baseline" ∈ args → ∀ f, s.base.baseline ≠ some (.func f))
    (hc : args.count "cres" ≤ 1) (hp : args.count "pf" ≤ 1) :
    (presetvars pi D args s).1 = (pdefaultvars pi D (pforget args s)).1 ∧
    ((pdefaultvars pi D (pforget args s)).1 = .ok () → presetvars pi D args s = pdefaultvars pi D (pforget args s)) := by
  obtain ⟨N, e, m1, m2, m3, m4⟩ := presetvars_eq pi D args s _ (preferred_forget args s)
  generalize hq : preferredQmax (pforget args s) = q at e m3
  have hd : HasData (midPdf pi q D args s.base) x y dy x0 x1 := ⟨h.hx, h.hy, h.hdy, h.leny, h.lendy, h.first, h.last, h.wide⟩
  have hB := c91_base D N (midPdf pi q D args s.base) x y dy x0 x1 hd (fun hm => hb ((m1 "baseline" (by simp)).1 hm))
  have hf : forget N (midPdf pi q D args s.base) = { (pforget args s).base with
      cres := chooseCres pi q (pforget args s).base.cres
      pf := some ((pforget args s).base.pf.getD (D.gaussianOverR (7 / 10))) } := by
    have r1 := m1 "rng" (by simp)
    have r2 := m1 "baseline" (by simp)
    have r3 := m1 "error_method" (by simp)
    have r4 := m1 "initial_peaks" (by simp)
    have r5 : ("effective_dy" ∈ if "dg" ∈ args then "effective_dy" :: args else args) ↔ "effective_dy" ∈ N := by
      rw [m2]
      by_cases hdg : "dg" ∈ args <;> simp [hdg]
    have r6 : "pf" ∉ N := by rw [m4]; omega
    have keep : ∀ a, a ≠ "effective_dy" → ((a ∈ if "dg" ∈ args then "effective_dy" :: args else args) ↔ a ∈ args) := by
      intro a ha
      by_cases hdg : "dg" ∈ args <;> simp [hdg, ha]
    unfold forget midPdf pforget forget unlessNamed
    simp only [r1, r2, r3, r4, r5, r6, keep _ (show "cres" ≠ "effective_dy" by decide), keep _ (show "pf" ≠ "effective_dy" by decide),
      keep _ (show "rng" ≠ "effective_dy" by decide), keep _ (show "baseline" ≠ "effective_dy" by decide),
      keep _ (show "error_method" ≠ "effective_dy" by decide), keep _ (show "initial_peaks" ≠ "effective_dy" by decide), if_false]
    congr 1
    by_cases hcr : "cres" ∈ args
    · by_cases hq0 : 0 < q
      · have : "cres" ∉ N := by rw [m3]; rintro ⟨-, h'⟩; have := h' hq0; omega
        simp [hcr, this, hq0, chooseCres]
      · have : "cres" ∈ N := by rw [m3]; exact ⟨hcr, fun h' => absurd h' hq0⟩
        simp [hcr, this, hq0, chooseCres]
    · have : "cres" ∉ N := by rw [m3]; rintro ⟨h', -⟩; exact hcr h'
      cases hbc : s.base.cres with
      | none => by_cases hq0 : 0 < q <;> simp [hcr, this, hq0, chooseCres]
      | some c => simp [hcr, this, chooseCres]
  rw [hf] at hB
  have e' : pdefaultvars pi D (pforget args s) =
      ((defaultvars D { (pforget args s).base with
          cres := chooseCres pi q (pforget args s).base.cres
          pf := some ((pforget args s).base.pf.getD (D.gaussianOverR (7 / 10))) }).1,
        { s with
          base := (defaultvars D { (pforget args s).base with
            cres := chooseCres pi q (pforget args s).base.cres
            pf := some ((pforget args s).base.pf.getD (D.gaussianOverR (7 / 10))) }).2
          qmax := some q
          nyquist := some ((unlessNamed "nyquist" args s.nyquist).getD (decide (0 < q)))
          scale := some ((unlessNamed "scale" args s.scale).getD false)
          supersample := some ((unlessNamed "supersample" args s.supersample).getD 4) }) := by
    unfold pdefaultvars
    rw [chooseQmax_eq, hq]
    rfl
  rw [e, e']
  refine ⟨hB.1, ?_⟩
  intro hok
  rw [hB.2 hok]

/-- **C91, finding.** A name given twice: the default of this class is replaced by that of the base class: the clustering
resolution is 4 times the mean spacing although qmax is known, the peak function has the width of the data instead of
0.7. -/
theorem c91_twice (pi : K) (D : Defaults K) (args : List String) (s : PPX K) (x y dy : List K) (x0 x1 : K)
    (h : HasData s.base x y dy x0 x1) (hb : ∀ f, s.base.baseline ≠ some (.func f)) :
    (2 ≤ args.count "cres" → (presetvars pi D args s).2.base.cres = some (4 * (x1 - x0) / x.length)) ∧
    (2 ≤ args.count "pf" → (presetvars pi D args s).2.base.pf = some (D.gaussianOverR (x1 - x0))) := by
  obtain ⟨N, e, m1, m2, m3, m4⟩ := presetvars_eq pi D args s _ (preferred_forget args s)
  generalize preferredQmax (pforget args s) = q at e m3
  have hd : HasData (midPdf pi q D args s.base) x y dy x0 x1 := ⟨h.hx, h.hy, h.hdy, h.leny, h.lendy, h.first, h.last, h.wide⟩
  have hB := c91_base D N (midPdf pi q D args s.base) x y dy x0 x1 hd (fun _ => hb)
  have hd' : HasData (forget N (midPdf pi q D args s.base)) x y dy x0 x1 :=
    ⟨h.hx, h.hy, h.hdy, h.leny, h.lendy, h.first, h.last, h.wide⟩
  obtain ⟨e', -, hD⟩ := c63_defaults D _ x y dy x0 x1 hd' (by
    intro f hf
    unfold forget unlessNamed at hf
    simp only at hf
    by_cases hn : "baseline" ∈ N
    · simp [hn] at hf
    · simp [hn] at hf
      exact hb f hf)
  rw [e, hB.2 (by rw [hD]), hD]
  constructor
  · intro h2
    have : "cres" ∈ N := by
      rw [m3]
      exact ⟨List.count_pos_iff.1 (by omega), fun _ => h2⟩
    simp [forget, unlessNamed, this]
  · intro h2
    have : "pf" ∈ N := m4.2 h2
    simp [forget, unlessNamed, this]

/-- The names of all extraction variables. -/
def varNames : List String :=
  ["cres", "effective_dy", "pf", "rng", "baseline", "error_method", "initial_peaks", "qmax", "nyquist", "scale",
    "supersample"]

/-- **C91.** Naming all variables gives what a new object gets from `defaultvars()` on the same data (with the same values
of qmax reported by the file and found in the data), whatever was set before. -/
theorem c91_everything (pi : K) (D : Defaults K) (s : PPX K) (x y dy : List K) (x0 x1 : K)
    (h : HasData s.base x y dy x0 x1) (hb : ∀ f, s.base.baseline ≠ some (.func f)) :
    presetvars pi D varNames s = pdefaultvars pi D
      { base := { x := s.base.x, y := s.base.y, dx := s.base.dx, dy := s.base.dy }
        qmaxReported := s.qmaxReported
        qmaxFromData := s.qmaxFromData } ∧
    (presetvars pi D varNames s).1 = .ok () := by
  have hf : pforget varNames s = { base := { x := s.base.x, y := s.base.y, dx := s.base.dx, dy := s.base.dy }, qmaxReported := s.qmaxReported, qmaxFromData := s.qmaxFromData } := by
    simp [pforget, forget, unlessNamed, varNames]
  have hok := (c64_defaults pi D (pforget varNames s) x y dy x0 x1 (by
    rw [hf]
    exact ⟨h.hx, h.hy, h.hdy, h.leny, h.lendy, h.first, h.last, h.wide⟩) (by rw [hf]; intro f h'; cases h')).1
  have := c91_pdf pi D varNames s x y dy x0 x1 h (fun _ => hb) (by decide) (by decide)
  rw [← hf]
  exact ⟨this.2 hok, this.1.trans hok⟩

/-- **C91.** Names that are not extraction variables are ignored (no exception, unlike `setvars`). -/
theorem c91_unknown (pi : K) (D : Defaults K) (args : List String) (s : PPX K) (x y dy : List K) (x0 x1 : K)
    (h : HasData s.base x y dy x0 x1) (hb : ∀ f, s.base.baseline ≠ some (.func f))
    (hu : ∀ a ∈ args, a ∉ varNames ∧ a ≠ "dg") :
    presetvars pi D args s = pdefaultvars pi D s ∧ (presetvars pi D args s).1 = .ok () := by
  have no : ∀ a ∈ "dg" :: varNames, a ∉ args := by
    intro a ha hm
    rcases List.mem_cons.1 ha with rfl | ha
    · exact (hu _ hm).2 rfl
    · exact (hu a hm).1 ha
  have hf : pforget args s = s := by
    unfold pforget forget unlessNamed
    rw [if_neg (no "dg" (by decide)), if_neg (no "cres" (by decide)), if_neg (no "effective_dy" (by decide)), if_neg (no "pf" (by decide)),
      if_neg (no "rng" (by decide)), if_neg (no "baseline" (by decide)), if_neg (no "error_method" (by decide)),
      if_neg (no "initial_peaks" (by decide)), if_neg (no "qmax" (by decide)), if_neg (no "nyquist" (by decide)),
      if_neg (no "scale" (by decide)), if_neg (no "supersample" (by decide))]
  have := c91_pdf pi D args s x y dy x0 x1 h (fun _ => hb)
    (by rw [List.count_eq_zero.2 (no "cres" (by decide))]; omega) (by rw [List.count_eq_zero.2 (no "pf" (by decide))]; omega)
  rw [hf] at this
  have hok := (c64_defaults pi D s x y dy x0 x1 h hb).1
  exact ⟨this.2 hok, this.1.trans hok⟩

/-- **C91.** Without names it is `defaultvars()`, with or without data. -/
theorem c91_pdf_nil (pi : K) (D : Defaults K) (s : PPX K) : presetvars pi D [] s = pdefaultvars pi D s := by
  obtain ⟨N, e, m1, m2, m3, m4⟩ := presetvars_eq pi D [] s _ (preferred_forget [] s)
  have hf : pforget [] s = s := by simp [pforget, forget, unlessNamed]
  rw [hf] at e m3
  have hN : ∀ a ∈ ["cres", "effective_dy", "pf", "rng", "baseline", "error_method", "initial_peaks"], a ∉ N := by
    intro a ha hm
    simp only [List.mem_cons, List.not_mem_nil, or_false] at ha
    rcases ha with rfl | rfl | rfl | rfl | rfl | rfl | rfl
    · simpa using (m3.1 hm).1
    · simpa using m2.1 hm
    · simpa using m4.1 hm
    · simpa using (m1 _ (by simp)).1 hm
    · simpa using (m1 _ (by simp)).1 hm
    · simpa using (m1 _ (by simp)).1 hm
    · simpa using (m1 _ (by simp)).1 hm
  have hr : ∀ t : PX K, resetvars D N t = defaultvars D t := by
    intro t
    rw [← c91_base_nil]
    unfold resetvars rCres rEffdy rPf rRng rBaseline rRest
    simp only [hN _ (show "cres" ∈ _ by simp), hN _ (show "effective_dy" ∈ _ by simp), hN _ (show "pf" ∈ _ by simp),
      hN _ (show "rng" ∈ _ by simp), hN _ (show "baseline" ∈ _ by simp), hN _ (show "error_method" ∈ _ by simp),
      hN _ (show "initial_peaks" ∈ _ by simp), List.not_mem_nil]
  rw [hr] at e
  have hm : midPdf pi (preferredQmax s) D [] s.base = { s.base with
      cres := chooseCres pi (preferredQmax s) s.base.cres
      pf := some (s.base.pf.getD (D.gaussianOverR (7 / 10))) } := by
    unfold midPdf chooseCres unlessNamed
    cases hc : s.base.cres <;> by_cases h0 : 0 < preferredQmax s <;> simp [h0]
  rw [e, hm]
  unfold pdefaultvars
  rw [chooseQmax_eq]
  simp [unlessNamed]

/-- A PDF object with data and all variables set. -/
def exReset : PPX ℚ :=
  { base := { exPX with cres := some 9, pf := some 44, baseline := some (.inst 5), effdy := .array [8, 8, 8] }
    qmax := some 7
    nyquist := some false
    qmaxReported := some 10 }

theorem exReset_data : HasData exReset.base [0, 1, 3] [1, 5, 2] [0, 1, 1] 0 3 :=
  ⟨rfl, rfl, rfl, rfl, rfl, rfl, rfl, by norm_num⟩

/-- Instances. -/
example := c91_base exD ["cres", "rng"] exReset.base _ _ _ _ _ exReset_data (by intro _ f h; cases h)
example := c91_base_function exD ["baseline"] { exReset.base with baseline := some (.func 3) } [0, 1, 3] [1, 5, 2] [0, 1, 1] 0 3
  ⟨rfl, rfl, rfl, rfl, rfl, rfl, rfl, by norm_num⟩ (by decide) 3 rfl [0, 1, 3] [1, 5, 2] (by decide +kernel)
example := c91_base_nil exD exReset.base
example := c91_pdf 3 exD ["cres", "dg"] exReset _ _ _ _ _ exReset_data (by intro _ f h; cases h) (by decide) (by decide)
example := c91_twice 3 exD ["cres", "cres"] exReset _ _ _ _ _ exReset_data (by intro f h; cases h)
example := c91_pdf_nil 3 exD exReset
example := c91_everything 3 exD exReset _ _ _ _ _ exReset_data (by intro f h; cases h)
example := c91_unknown 3 exD ["bogus"] exReset _ _ _ _ _ exReset_data (by intro f h; cases h) (by decide)
example : (presetvars 3 exD ["cres", "dg"] exReset).2.base.cres = some (3 / 7) ∧
    (presetvars 3 exD ["qmax", "cres"] exReset).2.base.cres = some (3 / 10) ∧
    (presetvars 3 exD ["cres", "cres"] exReset).2.base.cres = some 4 ∧
    (presetvars 3 exD ["dg"] exReset).2.base.effdy = .array [1 / 5, 1 / 5, 1 / 5] ∧
    (presetvars 3 exD ["dg"] exReset).2.base.cres = some 9 ∧
    (presetvars 3 exD ["nyquist"] exReset).2.nyquist = some true := by decide +kernel

end Verif.Pdf
